import Verif.Model.Inclusive
import Verif.Lemmas.MergeAll
import Verif.Lemmas.Origin
/-!
# Merging with inclusive masses

A merged subhalo gives nothing to its sink, so each subhalo changes alone.
-/
namespace HBT
open HBT.Model HBT.Spec HBT.Spec.Forest HBT.Props
variable {K D E : Type}

/-- Unbinding each subhalo alone. -/
theorem refineInclusive_ok [LinearOrder E] [Zero E] [MassSum K] {cfg : UnbindConfig} {env : Nat → UnbindEnv K D E}
    (hok : RefineOk cfg env) (hrelax : Keeps cfg.fl cfg.relax) (snap : Int) {subs : List (Sub K D)} {each : List Nat}
    (he : each.Perm (List.range subs.length)) :
    ∃ out, refineInclusive cfg env snap each subs = .ok out ∧ out.length = subs.length ∧
      ∀ (i : Nat) (s : Sub K D), subs[i]? = some s → ∃ s', out[i]? = some s' ∧
        RefinedSub cfg.minNum (env i).mass snap s s' ∧ ∃ w, w.Perm s.particles ∧ s'.particles <+: w := by
  refine runAll_each (R := fun i s s' => RefinedSub cfg.minNum (env i).mass snap s s' ∧ ∃ w, w.Perm s.particles ∧ s'.particles <+: w) he ?_
  intro i st s hs
  obtain ⟨w, e, hr⟩ := unbound_refined hok i snap s
  refine ⟨truncateSource cfg w, ?_, (refinedSub_of hok.min hrelax hr).1, w.particles, by simpa using hr.perm, ?_⟩
  · rw [refineAlone, get_some hs, Outcome.bind_ok, e, Outcome.bind_ok, Outcome.set_of_lt (List.getElem?_eq_some_iff.1 hs).1]
  · have hle : w.nbound ≤ w.particles.length := by
      have h1 := hr.le
      rw [hr.perm.length_eq]
      split at h1
      · simpa using h1
      · exact h1
    obtain ⟨ps, t1, t2, _⟩ := C31_truncate cfg hrelax w hle
    rw [t1]
    exact t2

/-- Who dies has particles, and its sink is there. -/
def CanDie (st : List (Sub K D)) (s : Sub K D) : Prop :=
  Dying s → 1 < s.nbound ∧ s.particles ≠ [] ∧ ∃ p : Nat, s.sinkTrackId = (p : Int) ∧ p < st.length

/-- One subhalo after `MergeRecursive`. -/
def MergedAlone [MassSum K] (mass : D → K) (snap : Int) (s s' : Sub K D) : Prop :=
  (Dying s → ∃ p rest, s.particles = p :: rest ∧ s' = mergedAway mass snap p s) ∧ (¬ Dying s → s' = s)

theorem mergeOneInclusive_ok [MassSum K] (mass : D → K) (snap : Int) {st : List (Sub K D)} {i : Nat} {s : Sub K D} (hs : st[i]? = some s)
    (hd : CanDie st s) : ∃ s', mergeOneInclusive mass snap i st = .ok (st.set i s') ∧ MergedAlone mass snap s s' := by
  have hi := (List.getElem?_eq_some_iff.1 hs).1
  by_cases hdy : Dying s
  · obtain ⟨hb, hne, p, hp, hpl⟩ := hd hdy
    obtain ⟨a, rest, hpart⟩ := List.exists_cons_of_ne_nil hne
    refine ⟨mergedAway mass snap a s, ?_, fun _ => ⟨a, rest, hpart, rfl⟩, fun h => absurd hdy h⟩
    rw [mergeOneInclusive, get_some hs, Outcome.bind_ok, if_pos (show _ ∧ _ from hdy), hp, getI_some (List.getElem?_eq_getElem hpl),
      Outcome.bind_ok, mergeAway, if_neg (by omega)]
    simp only [hpart]
    rw [Outcome.bind_ok, Outcome.set_of_lt hi]
    rfl
  · refine ⟨s, ?_, fun h => absurd h hdy, fun _ => rfl⟩
    rw [mergeOneInclusive, get_some hs, Outcome.bind_ok, if_neg (show ¬ (_ ∧ _) from hdy)]
    obtain ⟨hlt, rfl⟩ := List.getElem?_eq_some_iff.1 hs
    rw [List.set_getElem_self hlt]

theorem mergeRunInclusive [MassSum K] (mass : D → K) (snap : Int) (L : List Nat) (st : List (Sub K D)) (hn : L.Nodup)
    (hlt : ∀ i ∈ L, i < st.length) (hd : ∀ i ∈ L, ∀ s, st[i]? = some s → CanDie st s) :
    ∃ st', runAll (mergeOneInclusive mass snap) L st = .ok st' ∧ st'.length = st.length ∧ (∀ x, x ∉ L → st'[x]? = st[x]?) ∧
      ∀ i ∈ L, ∀ s, st[i]? = some s → ∃ s', st'[i]? = some s' ∧ MergedAlone mass snap s s' := by
  obtain ⟨out, e, hl, hf, hq⟩ := runAll_local (act := mergeOneInclusive mass snap) (fun i => [i])
    (Pre := fun i st' => st'.length = st.length ∧ st'[i]? = st[i]?)
    (Q := fun i a b => ∀ s, a[i]? = some s → ∃ s', b[i]? = some s' ∧ MergedAlone mass snap s s') L st hn
    (by
      intro i _ j _ hij x hx
      simp only [List.mem_singleton] at hx ⊢
      omega)
    (by
      rintro i hi st' ⟨h1, h2⟩
      have hi' : i < st'.length := by rw [h1]; exact hlt i hi
      have hs : st'[i]? = some st'[i] := List.getElem?_eq_getElem hi'
      obtain ⟨s', e, hr⟩ := mergeOneInclusive_ok mass snap hs (by
        have := hd i hi _ (by rw [← h2]; exact hs)
        unfold CanDie at this ⊢
        rw [h1]
        exact this)
      refine ⟨_, e, List.length_set, ?_, ?_⟩
      · intro x hx
        exact List.getElem?_set_ne (Ne.symm (by simpa using hx))
      · intro s hs'
        rw [hs] at hs'
        cases hs'
        exact ⟨s', List.getElem?_set_self hi', hr⟩)
    (by
      rintro i _ st1 st2 hl hag ⟨h1, h2⟩
      exact ⟨by rw [hl, h1], by rw [hag i (by simp), h2]⟩)
    (by
      intro i _ a b a' b' ha hb h s hs
      rw [hb i (by simp)]
      exact h s (by rw [← ha i (by simp), hs]))
    (fun i _ => ⟨rfl, rfl⟩)
  refine ⟨out, e, hl, fun x hx => hf x (fun i hi hxi => ?_), fun i hi s hs => hq i hi s hs⟩
  rw [List.mem_singleton] at hxi
  exact hx (hxi ▸ hi)

theorem mergeOneInclusive_nest [MassSum K] {mass : D → K} {snap : Int} {id : Nat} {subs subs' : List (Sub K D)}
    (h : mergeOneInclusive mass snap id subs = .ok subs') : subs'.map Sub.nested = subs.map Sub.nested := by
  rw [mergeOneInclusive] at h
  cases hg : subs[id]? with
  | none => simp [Outcome.get, hg] at h
  | some s =>
    have hid : id < subs.length := (List.getElem?_eq_some_iff.1 hg).1
    rw [get_some hg, Outcome.bind_ok] at h
    split at h
    · obtain ⟨_, _, h⟩ := bind_eq_ok h
      obtain ⟨s', hs', h⟩ := bind_eq_ok h
      rw [Outcome.set_of_lt hid] at h
      cases h
      refine map_set_same Sub.nested hg ?_
      show s'.nested = s.nested
      unfold mergeAway at hs'
      split at hs'
      · cases hs'; rfl
      · split at hs'
        · cases hs'
        · cases hs'; rfl
    · cases h
      rfl

theorem mergeRecInclusive_eq [MassSum K] {mass : D → K} {snap : Int} {subs : List (Sub K D)} {c : Nat} {k : Forest Nat}
    (hs : (Forest.cons c k .nil).Shows (idxKids subs)) {fuel : Nat} (hf : (Forest.cons c k .nil).height ≤ fuel) :
    mergeRecursiveInclusive mass snap fuel c subs = runAll (mergeOneInclusive mass snap) (Forest.cons c k .nil).post subs := by
  have := (visitKids_eq_runAll (σ := List (Sub K D))
    (nest := fun id st => do let s ← Outcome.get st id; .ok s.nested) (leave := mergeOneInclusive mass snap)
    (fun st => st.map Sub.nested = subs.map Sub.nested) (by
      intro id s1 s2 h1 h2
      rw [mergeOneInclusive_nest h2, h1]) (Forest.cons c k .nil) fuel subs hf rfl (by
      refine shows_congr _ ?_ hs
      rintro a _ l ⟨s, h1, h2⟩ s1 hst
      have : (s1.map Sub.nested)[a]? = some (ints l) := by
        rw [hst, List.getElem?_map, h1, Option.map_some, h2]
      rw [List.getElem?_map] at this
      obtain ⟨u, hu, hue⟩ := Option.map_eq_some_iff.1 this
      rw [get_some hu, Outcome.bind_ok, hue])).1
  rw [← this, roots_cons, roots_nil, ints_cons, ints_nil, visitKids, if_neg (by omega), Int.toNat_natCast, mergeRecursiveInclusive]
  cases visit (fun id (st : List (Sub K D)) => do let s ← Outcome.get st id; .ok s.nested) (fun _ _ => Outcome.ok ())
    (fun _ _ st => .ok st) (fun _ => mergeOneInclusive mass snap) fuel c subs <;> rfl

theorem mergeHostInclusive_ok [MassSum K] (mass : D → K) (snap : Int)
    {before st : List (Sub K D)} {groups : List (List Nat)} {h : Nat} {g hs : List Nat}
    (hg : groups[h]? = some g) (ht : GluedTree before st g hs) (hn : g.Nodup) (hlt : ∀ i ∈ g, i < st.length)
    {fuel : Nat} (hfuel : st.length ≤ fuel) (hd : ∀ i ∈ g, ∀ s, st[i]? = some s → CanDie st s) :
    ∃ out, mergeHostInclusive mass snap fuel groups h st = .ok out ∧ out.length = st.length ∧
      (∀ x, x ∉ g → out[x]? = st[x]?) ∧ ∀ i ∈ g, ∀ s, st[i]? = some s → ∃ s', out[i]? = some s' ∧ MergedAlone mass snap s s' := by
  cases ht with
  | empty =>
    refine ⟨st, by rw [mergeHostInclusive, get_some hg, Outcome.bind_ok], rfl, fun _ _ => rfl, ?_⟩
    intro i hi
    cases hi
  | tops c t k rest _ hnodes htree =>
    set T := Forest.cons c (k ++ rest) Forest.nil with hT
    have hTn : T.nodes.Perm (c :: t) := by
      refine List.Perm.trans (List.Perm.of_eq ?_) hnodes
      simp [hT, nodes_cons, nodes_append]
    have hpn : T.post.Perm (c :: t) := (post_perm T).trans hTn
    have hheight : T.height ≤ fuel := by
      refine (height_le _).trans ?_
      rw [hTn.length_eq]
      have hsub : (c :: t).Subperm (List.range st.length) :=
        List.Nodup.subperm hn (fun i hi => List.mem_range.2 (hlt i hi))
      have := hsub.length_le
      rw [List.length_range] at this
      omega
    obtain ⟨out, e, hl, hf, hq⟩ := mergeRunInclusive mass snap T.post st (hpn.nodup_iff.2 hn)
      (fun i hi => hlt i (hpn.mem_iff.1 hi)) (fun i hi => hd i (hpn.mem_iff.1 hi))
    refine ⟨out, ?_, hl, fun x hx => hf x (fun h => hx (hpn.mem_iff.1 h)), fun i hi => hq i (hpn.mem_iff.2 hi)⟩
    rw [mergeHostInclusive, get_some hg, Outcome.bind_ok]
    simp only
    rw [mergeRecInclusive_eq htree hheight, e]

theorem mergeTrappedInclusive_ok [LinearOrder E] [Zero E] [MassSum K] {cfg : UnbindConfig} {env : Nat → UnbindEnv K D E}
    (hok : RefineOk cfg env) (hrelax : Keeps cfg.fl cfg.relax) (mass : D → K) (hmass : ∀ i, (env i).mass = mass) (sunk : Nat → Nat → Bool)
    {snap : Int} {before st : List (Sub K D)} {nold : Nat} {groups heads : List (List Nat)} {field : List Nat}
    (h : Layout before nold groups heads field) (hset : ∀ s ∈ before, Settled cfg.minNum s) {merged : List Nat} {traps : Nat → Option Nat}
    (hd : Detected sunk snap groups heads before st merged traps) {fuel : Nat} (hfuel : before.length < fuel) {order each : List Nat}
    (ho : order.Perm (List.range groups.length)) (he : each.Perm (List.range before.length)) :
    ∃ (out mid : List (Sub K D)), mergeTrappedInclusive cfg env mass snap fuel order each groups merged st = .ok out ∧ out.length = before.length ∧
      TrappedMerged cfg.minNum mass snap before st mid out traps ∧
      ∀ (i : Nat) (s : Sub K D), before[i]? = some s → mergesOf true before traps i = none → srcAt mid i = s.particles := by
  set M := mergesOf true before traps with hM
  have hmin := hok.min
  have hMiff : ∀ (i : Nat) (s : Sub K D), before[i]? = some s → ∀ p, M i = some p ↔ Alive s ∧ traps i = some p := by
    intro i s hs p
    rw [hM, mergesOf_iff hs]
    simp
  have hMbeyond : ∀ i, before[i]? = none → M i = none := by
    intro i hi
    simp only [hM, mergesOf, hi]
  -- who dies
  have hdy : ∀ (i : Nat) (s u : Sub K D), before[i]? = some s → st[i]? = some u →
      (Dying u ↔ ∃ p, M i = some p) ∧ u.particles = s.particles ∧ u.nbound = s.nbound ∧ u.snapDeath = s.snapDeath ∧
      (∀ p, traps i = some p → u.sinkTrackId = (p : Int)) := by
    intro i s u hs hu
    obtain ⟨l, q1, _⟩ := hd.each i s hs
    rw [hu] at q1
    have hse := hset s (List.mem_of_getElem? hs)
    cases ht : traps i with
    | none =>
      rw [ht] at q1
      have hue : u = s.withNested (s.nested ++ l) := Option.some.inj q1
      subst hue
      refine ⟨⟨?_, ?_⟩, rfl, rfl, rfl, fun p hp => by cases hp⟩
      · rintro ⟨d1, d2⟩
        exact absurd (hse.alive d2).2 d1
      · rintro ⟨p, hp⟩
        rw [((hMiff i s hs p).1 hp).2] at ht
        cases ht
    | some p =>
      rw [ht] at q1
      have hue : u = recordTrap snap (s.withNested (s.nested ++ l)) (some p) := Option.some.inj q1
      subst hue
      refine ⟨⟨?_, ?_⟩, rfl, rfl, rfl, fun p' hp => by cases hp; rfl⟩
      · rintro ⟨_, d2⟩
        exact ⟨p, (hMiff i s hs p).2 ⟨d2, ht⟩⟩
      · rintro ⟨p', hp⟩
        refine ⟨?_, ((hMiff i s hs p').1 hp).1⟩
        show (p : Int) ≠ nullTrack
        unfold nullTrack
        omega
  have hfoundc : ∀ (i : Nat) (s : Sub K D) (p : Nat), before[i]? = some s → M i = some p →
      Contains before groups p i ∧ 1 < s.nbound ∧ s.particles ≠ [] := by
    intro i s p hs hp
    obtain ⟨a1, a2⟩ := (hMiff i s hs p).1 hp
    have hse := hset s (List.mem_of_getElem? hs)
    have hal := hse.alive a1
    have := hd.found i s hs hal.2
    rw [a2] at this
    refine ⟨this.1, by omega, ?_⟩
    intro hnil
    have := hse.le
    rw [hnil] at this
    simp at this
    omega
  have hstget : ∀ i, i < before.length → ∃ s u, before[i]? = some s ∧ st[i]? = some u := fun i hi =>
    ⟨_, _, List.getElem?_eq_getElem hi, List.getElem?_eq_getElem (by rw [hd.length]; exact hi)⟩
  have hlen : groups.length = heads.length := h.forests.length_eq
  have hmemo : ∀ i ∈ order, i < groups.length := fun i hi => List.mem_range.1 (ho.mem_iff.1 hi)
  have hall : ∀ i (hi : i < groups.length), (groups.getD i []) = groups[i] := fun i hi => by
    simp [List.getD, hi]
  obtain ⟨mid, e1, hl1, hf1, hq1⟩ := runAll_local (act := mergeHostInclusive mass snap fuel groups) (fun i => groups.getD i [])
    (Pre := fun i st' => st'.length = st.length ∧ Agree (groups.getD i []) st st')
    (Q := fun i a b => ∀ x ∈ groups.getD i [], ∀ s, a[x]? = some s → ∃ s', b[x]? = some s' ∧ MergedAlone mass snap s s') order st
    (ho.nodup_iff.2 List.nodup_range)
    (by
      intro i hi j hj hij x hx
      have hi' := hmemo i hi
      have hj' := hmemo j hj
      rw [hall i hi'] at hx
      rw [hall j hj']
      exact h.disjoint (List.getElem?_eq_getElem hi') (List.getElem?_eq_getElem hj') hij hx)
    (by
      rintro j hj st' ⟨hst1, hst2⟩
      have hj' := hmemo j hj
      have hg : groups[j] ∈ groups := List.getElem_mem hj'
      rw [hall j hj'] at hst2 ⊢
      have hgn : groups[j].Nodup := by
        have := h.nodup
        rw [List.nodup_flatten] at this
        exact this.1 _ hg
      have hlt : ∀ x ∈ groups[j], x < before.length := fun x hx => lt_of_lt_of_le (h.lt hg hx) h.le
      have hforest := (List.forall₂_iff_get.1 hd.tree).2 j hj' (by omega)
      simp only [List.get_eq_getElem] at hforest
      have hforest' := gluedTree_nested hforest (b := st') (fun x hx s hs => ⟨s, by rw [hst2 x hx, hs], rfl⟩)
      refine mergeHostInclusive_ok mass snap (List.getElem?_eq_getElem hj') hforest' hgn
        (fun x hx => by rw [hst1, hd.length]; exact hlt x hx) (by rw [hst1, hd.length]; omega) ?_
      intro i hi u hu hdu
      have hs := List.getElem?_eq_getElem (hlt i hi)
      have hu0 : st[i]? = some u := by rw [← hst2 i hi, hu]
      obtain ⟨k1, k2, k3, k4, k5⟩ := hdy i _ u hs hu0
      obtain ⟨p, hp⟩ := k1.1 hdu
      obtain ⟨c1, c2, c3⟩ := hfoundc i _ p hs hp
      refine ⟨by omega, by rw [k2]; exact c3, p, k5 p ((hMiff i _ hs p).1 hp).2, ?_⟩
      obtain ⟨g, hg, hpg, _⟩ := contains_group h c1
      have := h.lt hg hpg
      have := h.le
      rw [hst1, hd.length]
      omega)
    (by
      rintro i _ st1 st2 hl hag ⟨h1, h2⟩
      exact ⟨by rw [hl, h1], fun x hx => by rw [hag x hx, h2 x hx]⟩)
    (by
      intro i _ a b a' b' ha hb hm x hx s hs
      rw [hb x hx]
      exact hm x hx s (by rw [← ha x hx, hs]))
    (fun i _ => ⟨rfl, fun _ _ => rfl⟩)
  have hmidlen : mid.length = before.length := by rw [hl1, hd.length]
  -- membership in merged
  have hmm : ∀ p, p ∈ merged ↔ ∃ j, M j = some p := by
    intro p
    rw [hd.merged_ p]
    constructor
    · rintro ⟨i, s, hs, hb, ht⟩
      have hse := hset s (List.mem_of_getElem? hs)
      refine ⟨i, (hMiff i s hs p).2 ⟨?_, ht⟩⟩
      by_contra hc
      have := (hse.dead hc).1
      omega
    · rintro ⟨i, hi⟩
      cases hs : before[i]? with
      | none => rw [hMbeyond i hs] at hi; cases hi
      | some s =>
        exact ⟨i, s, hs, (hfoundc i s p hs hi).2.1, ((hMiff i s hs p).1 hi).2⟩
  obtain ⟨st3, e2, hl2, hq2⟩ := runAll_each (act := unbindMerged cfg env snap merged)
    (R := fun i a b => (i ∈ merged → Refined (∀ k j, (env i).energy k j < 0) cfg.minNum mass snap a b []) ∧ (i ∉ merged → b = a)) (each := each) (st := mid)
    (by rw [hmidlen]; exact he) (by
      intro i st' s hs
      by_cases hi : i ∈ merged
      · obtain ⟨v', e, hr⟩ := unbound_refined hok i snap s
        rw [hmass] at hr
        refine ⟨v', ?_, fun _ => hr, fun hn => absurd hi hn⟩
        rw [unbindMerged, if_pos hi, unbindAt, get_some hs, Outcome.bind_ok, e, Outcome.bind_ok,
          Outcome.set_of_lt (List.getElem?_eq_some_iff.1 hs).1]
      · refine ⟨s, ?_, fun hn => absurd hn hi, fun _ => rfl⟩
        rw [unbindMerged, if_neg hi]
        congr 1
        obtain ⟨hlt, rfl⟩ := List.getElem?_eq_some_iff.1 hs
        exact (List.set_getElem_self hlt).symm)
  obtain ⟨st4, e3, hl3, hq3⟩ := runAll_each (act := truncMerged cfg merged)
    (R := fun i a b => (i ∈ merged → b = truncateSource cfg a) ∧ (i ∉ merged → b = a)) (each := each) (st := st3)
    (by rw [hl2, hmidlen]; exact he) (by
      intro i st' s hs
      by_cases hi : i ∈ merged
      · refine ⟨truncateSource cfg s, ?_, fun _ => rfl, fun hn => absurd hi hn⟩
        rw [truncMerged, if_pos hi, get_some hs, Outcome.bind_ok, Outcome.set_of_lt (List.getElem?_eq_some_iff.1 hs).1]
      · refine ⟨s, ?_, fun hn => absurd hn hi, fun _ => rfl⟩
        rw [truncMerged, if_neg hi]
        congr 1
        obtain ⟨hlt, rfl⟩ := List.getElem?_eq_some_iff.1 hs
        exact (List.set_getElem_self hlt).symm)
  have halone : ∀ (i : Nat) (s u : Sub K D), before[i]? = some s → st[i]? = some u → ∃ v, mid[i]? = some v ∧ MergedAlone mass snap u v := by
    intro i s u hs hu
    by_cases hig : i ∈ groups.flatten
    · obtain ⟨g, hg, hi⟩ := List.mem_flatten.1 hig
      obtain ⟨j, hj, rfl⟩ := List.getElem_of_mem hg
      exact hq1 j (ho.mem_iff.2 (List.mem_range.2 hj)) i (by rw [hall j hj]; exact hi) u hu
    · refine ⟨u, ?_, ?_, fun _ => rfl⟩
      · rw [hf1 i (fun j hj hij => hig (by
          rw [hall j (hmemo j hj)] at hij
          exact List.mem_flatten.2 ⟨_, List.getElem_mem _, hij⟩)), hu]
      · intro hdu
        obtain ⟨p, hp⟩ := ((hdy i s u hs hu).1).1 hdu
        obtain ⟨g0, hg0, _, hi⟩ := contains_group h (hfoundc i s p hs hp).1
        exact absurd (List.mem_flatten.2 ⟨g0, hg0, hi⟩) hig
  have hnotdying : ∀ (i : Nat) (s u : Sub K D), before[i]? = some s → st[i]? = some u → M i = none → ¬ Dying u := by
    intro i s u hs hu hnone hdu
    obtain ⟨p, hp⟩ := ((hdy i s u hs hu).1).1 hdu
    rw [hnone] at hp
    cases hp
  refine ⟨st4, mid, ?_, by rw [hl3, hl2, hmidlen], ?_, ?_⟩
  · rw [mergeTrappedInclusive, e1, Outcome.bind_ok, e2, Outcome.bind_ok, e3]
  · intro i s u hs hu
    have hib := (List.getElem?_eq_some_iff.1 hs).1
    obtain ⟨k1, k2, k3, k4, k5⟩ := hdy i s u hs hu
    obtain ⟨v, hv, m1, m2⟩ := halone i s u hs hu
    obtain ⟨w, w1, w2, w3⟩ := hq2 i _ hv
    obtain ⟨v', v1, v2, v3⟩ := hq3 i w w1
    refine ⟨_, v', hv, v1, ?_, ?_, ?_, ?_⟩
    · rintro ⟨p, hp⟩
      obtain ⟨x, rest, y1, y2⟩ := m1 (k1.2 ⟨p, hp⟩)
      exact ⟨x, rest, by rw [← k2, y1], y2⟩
    · intro hnone
      refine ⟨[], s.nbound, ?_, le_refl _, by simp, fun x hx => (by cases hx), fun _ => ⟨rfl, rfl⟩⟩
      rw [m2 (hnotdying i s u hs hu hnone), ← k3]
      unfold enlarged
      simp
    · intro hj
      have him := (hmm i).2 hj
      rw [v2 him]
      refine ⟨(refinedSub_of hmin hrelax (w2 him)).1, w.particles, by simpa using (w2 him).perm, ?_⟩
      have hle : w.nbound ≤ w.particles.length := by
        have h1 := (w2 him).le
        rw [(w2 him).perm.length_eq]
        split at h1
        · simpa using h1
        · exact h1
      obtain ⟨ps, t1, t2, _⟩ := C31_truncate cfg hrelax w hle
      rw [t1]
      exact t2
    · intro hno
      have him : i ∉ merged := fun hm => by
        obtain ⟨j, hj⟩ := (hmm i).1 hm
        exact hno j hj
      rw [v3 him, w3 him]
  · intro i s hs hnone
    obtain ⟨_, u, _, hu⟩ := hstget i (List.getElem?_eq_some_iff.1 hs).1
    obtain ⟨v, hv, m1, m2⟩ := halone i s u hs hu
    unfold srcAt
    rw [hv, m2 (hnotdying i s u hs hu hnone)]
    exact (hdy i s u hs hu).2.1

/-- `MergeSubhalos` on one process. A sink gets nothing. -/
theorem mergeInclusive_snap [LinearOrder E] [Zero E] [MassSum K] {cfg : UnbindConfig} {env : Nat → UnbindEnv K D E}
    (hok : RefineOk cfg env) (hrelax : Keeps cfg.fl cfg.relax) (mass : D → K) (hmass : ∀ i, (env i).mass = mass) (on : Bool) (sunk : Nat → Nat → Bool)
    {snap : Int} {before : List (Sub K D)} {nold : Nat} {groups heads : List (List Nat)} {field : List Nat}
    (h : Layout before nold groups heads field) (hset : ∀ s ∈ before, Settled cfg.minNum s)
    {fuel : Nat} (hfuel : before.length < fuel) {order each : List Nat}
    (ho : order.Perm (List.range groups.length)) (he : each.Perm (List.range before.length)) :
    ∃ out traps merges middle, mergeSubhalosInclusive cfg env mass on sunk snap fuel order each groups heads before = .ok out ∧
      MergingCore on cfg.minNum mass snap (Contains before groups) sunk before out traps merges middle ∧
      ∀ (i : Nat) (s : Sub K D), before[i]? = some s → merges i = none → middle i = s.particles := by
  obtain ⟨glued, hosts, st, merged, traps, e1, e2, e3, hd⟩ := detect_ok sunk snap h hfuel ho he
  cases on with
  | false =>
    obtain ⟨out, e4, hm⟩ := mergingCore_off (cfg := cfg) mass sunk h hd ho (srcAt before)
    refine ⟨out, traps, mergesOf false before traps, srcAt before, ?_, hm, ?_⟩
    · rw [mergeSubhalosInclusive, e1, Outcome.bind_ok, e2, Outcome.bind_ok, e3, Outcome.bind_ok]
      simp only [Bool.false_eq_true, if_false]
      rw [Outcome.bind_ok, e4]
    · intro i s hs _
      unfold srcAt
      rw [hs]
  | true =>
    obtain ⟨done, mid, e4, hl4, hq4, hc4⟩ := mergeTrappedInclusive_ok hok hrelax mass hmass sunk h hset hd hfuel ho he
    obtain ⟨out, e5, hm⟩ := mergingCore_on hok.min mass sunk h hset hd ho hl4 hq4
    refine ⟨out, traps, mergesOf true before traps, srcAt mid, ?_, hm, hc4⟩
    rw [mergeSubhalosInclusive, e1, Outcome.bind_ok, e2, Outcome.bind_ok, e3, Outcome.bind_ok]
    simp only [if_true]
    rw [e4, Outcome.bind_ok, e5]

end HBT
