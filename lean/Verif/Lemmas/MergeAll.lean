import Verif.Lemmas.Trap
import Verif.Spec.Merge
import Verif.Props.Refine
/-!
# Helper lemmas: `MergeSubhalos` on one process
-/
namespace HBT
open HBT.Model HBT.Spec HBT.Spec.Forest HBT.Props
variable {K D E : Type}

/-- A loop over all subhaloes in which each iteration changes its own subhalo only. -/
theorem runAll_each {α : Type} {act : Nat → List α → Outcome (List α)} {R : Nat → α → α → Prop} {each : List Nat} {st : List α}
    (he : each.Perm (List.range st.length))
    (hact : ∀ (i : Nat) (st : List α) (s : α), st[i]? = some s → ∃ s', act i st = .ok (st.set i s') ∧ R i s s') :
    ∃ st', runAll act each st = .ok st' ∧ st'.length = st.length ∧
      ∀ (i : Nat) (s : α), st[i]? = some s → ∃ s', st'[i]? = some s' ∧ R i s s' := by
  have hlt : ∀ i ∈ each, i < st.length := fun i hi => List.mem_range.1 (he.mem_iff.1 hi)
  obtain ⟨out, e, hl, hf, hq⟩ := runAll_local (act := act) (fun i => [i])
    (Pre := fun i st' => st'.length = st.length)
    (Q := fun i a b => ∀ s, a[i]? = some s → ∃ s', b[i]? = some s' ∧ R i s s') each st (he.nodup_iff.2 List.nodup_range)
    (by
      intro i _ j _ hij x hx
      simp only [List.mem_singleton] at hx ⊢
      omega)
    (by
      intro i hi st' hst
      have hi' : i < st'.length := by rw [hst]; exact hlt i hi
      obtain ⟨s', e, hr⟩ := hact i st' st'[i] (List.getElem?_eq_getElem hi')
      refine ⟨_, e, List.length_set, ?_, ?_⟩
      · intro x hx
        exact List.getElem?_set_ne (Ne.symm (by simpa using hx))
      · intro s hs
        rw [List.getElem?_eq_getElem hi'] at hs
        cases hs
        exact ⟨s', List.getElem?_set_self hi', hr⟩)
    (by
      intro i _ st st' hl _ h1
      rw [hl, h1])
    (by
      intro i _ a b a' b' ha hb h s hs
      rw [hb i (by simp)]
      exact h s (by rw [← ha i (by simp), hs]))
    (fun i _ => rfl)
  exact ⟨out, e, hl, fun i s hs => hq i (he.mem_iff.2 (List.mem_range.2 (List.getElem?_eq_some_iff.1 hs).1)) s hs⟩

theorem map_set_same {α β : Type} (f : α → β) {l : List α} {i : Nat} {u v : α} (h : l[i]? = some u) (e : f v = f u) :
    (l.set i v).map f = l.map f := by
  apply List.ext_getElem?
  intro j
  rw [List.getElem?_map, List.getElem?_map]
  by_cases hij : i = j
  · subst hij
    rw [List.getElem?_set_self (List.getElem?_eq_some_iff.1 h).1, h, Option.map_some, Option.map_some, e]
  · rw [List.getElem?_set_ne hij]

theorem mergeTo_nest [MassSum K] {mass : D → K} {sat host : Sub K D} {r : Sub K D × Sub K D} (h : mergeTo mass sat host = .ok r) :
    r.1.nested = sat.nested ∧ r.2.nested = host.nested := by
  rw [mergeTo] at h
  split at h
  · cases h
    exact ⟨rfl, rfl⟩
  · simp only at h
    split at h
    · cases h
    · cases h
      exact ⟨rfl, rfl⟩

theorem mergeOne_nest [MassSum K] {mass : D → K} {snap : Int} {id : Nat} {subs subs' : List (Sub K D)}
    (h : mergeOne mass snap id subs = .ok subs') : subs'.map Sub.nested = subs.map Sub.nested := by
  rw [mergeOne] at h
  cases hg : subs[id]? with
  | none => simp [Outcome.get, hg] at h
  | some s =>
    have hid : id < subs.length := (List.getElem?_eq_some_iff.1 hg).1
    rw [get_some hg, Outcome.bind_ok] at h
    split at h
    · split at h
      · cases h
      · cases hh : Outcome.getI subs s.sinkTrackId with
        | ok host =>
          rw [hh, Outcome.bind_ok] at h
          cases hm : mergeTo mass s host with
          | ok r =>
            obtain ⟨n1, n2⟩ := mergeTo_nest hm
            have hgi : subs[s.sinkTrackId.toNat]? = some host ∧ ¬ s.sinkTrackId < 0 := by
              unfold Outcome.getI at hh
              split at hh
              · cases hh
              · rename_i hneg
                unfold Outcome.get at hh
                split at hh
                · rename_i x hx
                  cases hh
                  exact ⟨hx, hneg⟩
                · cases hh
            rw [hm, Outcome.bind_ok, Outcome.set_of_lt (List.getElem?_eq_some_iff.1 hgi.1).1, Outcome.bind_ok,
              Outcome.set_of_lt (by rw [List.length_set]; exact hid)] at h
            cases h
            rename_i hne
            have hs' : (subs.set s.sinkTrackId.toNat r.2)[id]? = some s := by
              rw [List.getElem?_set_ne (by intro h'; apply hne; omega), hg]
            rw [map_set_same Sub.nested hs' (by exact n1), map_set_same Sub.nested hgi.1 n2]
          | ub => rw [hm] at h; cases h
          | abort => rw [hm] at h; cases h
          | diverge => rw [hm] at h; cases h
        | ub => rw [hh] at h; cases h
        | abort => rw [hh] at h; cases h
        | diverge => rw [hh] at h; cases h
    · cases h
      rfl

/-- `MergeRecursive` on a tree. -/
theorem mergeRec_eq [MassSum K] {mass : D → K} {snap : Int} {subs : List (Sub K D)} {c : Nat} {k : Forest Nat}
    (hs : (Forest.cons c k .nil).Shows (idxKids subs)) {fuel : Nat} (hf : (Forest.cons c k .nil).height ≤ fuel) :
    mergeRecursive mass snap fuel c subs = runAll (mergeOne mass snap) (Forest.cons c k .nil).post subs := by
  have := (visitKids_eq_runAll (σ := List (Sub K D))
    (nest := fun id st => do let s ← Outcome.get st id; .ok s.nested) (leave := mergeOne mass snap)
    (fun st => st.map Sub.nested = subs.map Sub.nested) (by
      intro id s1 s2 h1 h2
      rw [mergeOne_nest h2, h1]) (Forest.cons c k .nil) fuel subs hf rfl (by
      refine shows_congr _ ?_ hs
      rintro a _ l ⟨s, h1, h2⟩ s1 hst
      have : (s1.map Sub.nested)[a]? = some (ints l) := by
        rw [hst, List.getElem?_map, h1, Option.map_some, h2]
      rw [List.getElem?_map] at this
      obtain ⟨u, hu, hue⟩ := Option.map_eq_some_iff.1 this
      rw [get_some hu, Outcome.bind_ok, hue])).1
  rw [← this, roots_cons, roots_nil, ints_cons, ints_nil, visitKids, if_neg (by omega), Int.toNat_natCast, mergeRecursive]
  cases visit (fun id (st : List (Sub K D)) => do let s ← Outcome.get st id; .ok s.nested) (fun _ _ => Outcome.ok ())
    (fun _ _ st => .ok st) (fun _ => mergeOne mass snap) fuel c subs <;> rfl

/-- What is above comes later. -/
theorem inside_after {T : Forest Nat} (hn : T.nodes.Nodup) {p y : Nat} (h : Inside p y T) {l1 l3 : List Nat}
    (hpp : T.post = l1 ++ y :: l3) : p ∈ l3 := by
  have hpn : T.post.Nodup := (post_perm T).nodup_iff.2 hn
  obtain ⟨a, b, c, e⟩ := inside_post h
  have hlen : l1.length = a.length := by
    have h1 : (T.post.idxOf y) = l1.length := by
      rw [hpp]
      rw [hpp, List.nodup_append] at hpn
      rw [List.idxOf_append_of_notMem (fun hm => hpn.2.2 y hm y (by simp) rfl)]
      simp
    have h2 : (T.post.idxOf y) = a.length := by
      rw [e]
      rw [e, List.nodup_append] at hpn
      rw [List.idxOf_append_of_notMem (fun hm => hpn.2.2 y hm y (by simp) rfl)]
      simp
    omega
  have := (List.append_inj (hpp.symm.trans e) hlen).2
  simp only [List.cons.injEq, true_and] at this
  rw [this]
  simp

/-- The members of one host before and after `MergeRecursive`. -/
structure MergedGroup (mass : D → K) (snap : Int) (anc : Nat → Nat → Prop) (g : List Nat) (a b : List (Sub K D)) : Prop where
  away : ∀ i ∈ g, ∀ s, a[i]? = some s → Dying s → ∃ p rest, s.particles = p :: rest ∧ b[i]? = some (mergedAway mass snap p s)
  grown : ∀ i ∈ g, ∀ s, a[i]? = some s → ¬ Dying s → ∃ extra n, b[i]? = some (enlarged extra n s) ∧ s.nbound ≤ n ∧
        (extra.map Particle.id).Nodup ∧
        (∀ p ∈ extra, p.id ∉ sourceIds s ∧ ∃ j ∈ g, ∃ t, a[j]? = some t ∧ Dying t ∧ anc i j ∧ p ∈ t.particles) ∧
        ((∀ j ∈ g, ∀ t, a[j]? = some t → Dying t → t.sinkTrackId ≠ (i : Int)) → extra = [] ∧ n = s.nbound)
  conserved : ∀ i ∈ g, ∀ s, a[i]? = some s → ∀ x ∈ sourceIds s, ∃ q ∈ g, ∃ t t', a[q]? = some t ∧ ¬ Dying t ∧ b[q]? = some t' ∧
        (q = i ∨ anc q i) ∧ x ∈ sourceIds t'

theorem mergedGroup_congr {mass : D → K} {snap : Int} {anc : Nat → Nat → Prop} {g : List Nat} {a b a' b' : List (Sub K D)}
    (ha : Agree g a a') (hb : Agree g b b') (h : MergedGroup mass snap anc g a b) : MergedGroup mass snap anc g a' b' where
  away := fun i hi s hs hd => by
    rw [hb i hi]
    exact h.away i hi s (by rw [← ha i hi, hs]) hd
  grown := fun i hi s hs hd => by
    obtain ⟨extra, n, h1, h2, h3, h4, h5⟩ := h.grown i hi s (by rw [← ha i hi, hs]) hd
    refine ⟨extra, n, by rw [hb i hi, h1], h2, h3, fun p hp => ?_, fun hno => h5 (fun j hj t ht => hno j hj t (by rw [ha j hj, ht]))⟩
    obtain ⟨q1, j, hj, t, q2, q3⟩ := h4 p hp
    exact ⟨q1, j, hj, t, by rw [ha j hj, q2], q3⟩
  conserved := fun i hi s hs x hx => by
    obtain ⟨q, hq, t, t', h1, h2, h3, h4⟩ := h.conserved i hi s (by rw [← ha i hi, hs]) x hx
    exact ⟨q, hq, t, t', by rw [ha q hq, h1], h2, by rw [hb q hq, h3], h4⟩

theorem mergeHost_ok [MassSum K] (mass : D → K) (snap : Int) (anc : Nat → Nat → Prop)
    (htrans : ∀ a b c, anc a b → anc b c → anc a c)
    {before st : List (Sub K D)} {groups : List (List Nat)} {h : Nat} {g hs : List Nat}
    (hg : groups[h]? = some g) (ht : GluedTree before st g hs) (hn : g.Nodup) (hlt : ∀ i ∈ g, i < st.length)
    {fuel : Nat} (hfuel : st.length ≤ fuel)
    (hd : ∀ c t k rest, g = c :: t → (Forest.cons c (k ++ rest) .nil).Shows (idxKids st) →
      (Forest.cons c k rest).nodes.Perm (c :: t) → ∀ i ∈ g, ∀ s, st[i]? = some s → Dying s →
      1 < s.nbound ∧ s.particles ≠ [] ∧ ∃ p : Nat, s.sinkTrackId = (p : Int) ∧ anc p i ∧ Inside p i (Forest.cons c (k ++ rest) .nil)) :
    ∃ out, mergeHost mass snap fuel groups h st = .ok out ∧ out.length = st.length ∧
      (∀ x, x ∉ g → out[x]? = st[x]?) ∧ MergedGroup mass snap anc g st out := by
  cases ht with
  | empty =>
    refine ⟨st, by rw [mergeHost, get_some hg, Outcome.bind_ok], rfl, fun _ _ => rfl, ?_, ?_, ?_⟩ <;> intro i hi <;> cases hi
  | tops c t k rest _ hnodes htree =>
    set T := Forest.cons c (k ++ rest) Forest.nil with hT
    have hTn : T.nodes.Perm (c :: t) := by
      refine List.Perm.trans (List.Perm.of_eq ?_) hnodes
      simp [hT, nodes_cons, nodes_append]
    have hTnd : T.nodes.Nodup := hTn.nodup_iff.2 hn
    have hpn : T.post.Perm (c :: t) := (post_perm T).trans hTn
    have hheight : T.height ≤ fuel := by
      refine (height_le _).trans ?_
      rw [hTn.length_eq]
      have hsub : (c :: t).Subperm (List.range st.length) :=
        List.Nodup.subperm hn (fun i hi => List.mem_range.2 (hlt i hi))
      have := hsub.length_le
      rw [List.length_range] at this
      omega
    obtain ⟨out, e, hl, hf, h1, h2, h3⟩ := mergeRun mass snap anc htrans T.post st (hpn.nodup_iff.2 hn)
      (fun i hi => hlt i (hpn.mem_iff.1 hi)) (by
        intro pre i post s hpp hs hdy
        obtain ⟨a1, a2, p, a3, a4, a5⟩ := hd c t k rest rfl htree hnodes i (hpn.mem_iff.1 (by rw [hpp]; simp)) s hs hdy
        exact ⟨a1, a2, p, inside_after hTnd a5 hpp, a3, a4⟩)
    refine ⟨out, ?_, hl, fun x hx => hf x (fun h => hx (hpn.mem_iff.1 h)), ?_, ?_, ?_⟩
    · rw [mergeHost, get_some hg, Outcome.bind_ok]
      simp only
      rw [mergeRec_eq htree hheight, e]
    · intro i hi
      exact h1 i (hpn.mem_iff.2 hi)
    · intro i hi s hs hdy
      obtain ⟨extra, n, b1, b2, b3, b4, b5⟩ := h2 i (hpn.mem_iff.2 hi) s hs hdy
      refine ⟨extra, n, b1, b2, b3, fun p hp => ?_, fun hno => b5 (fun j hj => hno j (hpn.mem_iff.1 hj))⟩
      obtain ⟨q1, j, hj, r⟩ := b4 p hp
      exact ⟨q1, j, hpn.mem_iff.1 hj, r⟩
    · intro i hi s hs x hx
      obtain ⟨q, hq, r⟩ := h3 i (hpn.mem_iff.2 hi) s hs x hx
      exact ⟨q, hpn.mem_iff.1 hq, r⟩

/-- `UnglueHeadNests`. -/
theorem unglueAll_ok {before st : List (Sub K D)} {nold : Nat} {groups heads : List (List Nat)} {field : List Nat}
    (h : Layout before nold groups heads field) {order : List Nat}
    (ho : order.Perm (List.range groups.length))
    (hst : ∀ (i : Nat) (s : Sub K D), before[i]? = some s → ∃ u l, st[i]? = some u ∧ u.nested = s.nested ++ l ∧
      ((∀ g ∈ groups, g.head? ≠ some i) → l = [])) :
    ∃ out, runAll (unglueHost groups before) order st = .ok out ∧ out.length = st.length ∧
      ∀ (i : Nat) (s u : Sub K D), before[i]? = some s → st[i]? = some u → out[i]? = some (u.withNested s.nested) := by
  have hmemo : ∀ i ∈ order, i < groups.length := fun i hi => List.mem_range.1 (ho.mem_iff.1 hi)
  have hall : ∀ i (hi : i < groups.length), (groups.getD i []) = groups[i] := fun i hi => by
    simp [List.getD, hi]
  obtain ⟨out, e, hl', hf, hq⟩ := runAll_local (act := unglueHost groups before) (fun i => groups.getD i [])
    (Pre := fun i st' => st'.length = st.length ∧ Agree (groups.getD i []) st st')
    (Q := fun i a b => ∀ x ∈ groups.getD i [], ∀ s u : Sub K D, before[x]? = some s → a[x]? = some u → b[x]? = some (u.withNested s.nested))
    order st (ho.nodup_iff.2 List.nodup_range)
    (by
      intro i hi j hj hij x hx
      have hi' := hmemo i hi
      have hj' := hmemo j hj
      rw [hall i hi'] at hx
      rw [hall j hj']
      exact h.disjoint (List.getElem?_eq_getElem hi') (List.getElem?_eq_getElem hj') hij hx)
    (by
      rintro i hi st' ⟨hst1, hst2⟩
      have hi' := hmemo i hi
      have hgm : groups[i] ∈ groups := List.getElem_mem hi'
      have hlt : ∀ x ∈ groups[i], x < before.length := fun x hx => lt_of_lt_of_le (h.lt hgm hx) h.le
      rw [hall i hi'] at hst2 ⊢
      cases hg : groups[i] with
      | nil =>
        refine ⟨st', ?_, rfl, fun _ _ => rfl, fun x hx => by cases hx⟩
        rw [unglueHost, get_some (List.getElem?_eq_getElem hi'), Outcome.bind_ok, hg]
      | cons c t =>
        rw [hg] at hst2 hlt hgm
        have hc := hlt c (by simp)
        obtain ⟨u, l, h1, h2, _⟩ := hst c _ (List.getElem?_eq_getElem hc)
        have hu : st'[c]? = some u := by rw [hst2 c (by simp), h1]
        have hcl : c < st'.length := (List.getElem?_eq_some_iff.1 hu).1
        refine ⟨st'.set c (u.withNested before[c].nested), ?_, List.length_set, ?_, ?_⟩
        · rw [unglueHost, get_some (List.getElem?_eq_getElem hi'), Outcome.bind_ok, hg]
          simp only
          rw [rootNestSize, get_some (List.getElem?_eq_getElem hi'), Outcome.bind_ok, hg]
          simp only
          rw [get_some (List.getElem?_eq_getElem hc), Outcome.bind_ok, Outcome.bind_ok, unglue, get_some hu, Outcome.bind_ok,
            Outcome.set_of_lt hcl, h2, List.take_left]
        · intro x hx
          exact List.getElem?_set_ne (by rintro rfl; simp at hx)
        · intro x hx s v hs hv
          by_cases hxc : x = c
          · subst hxc
            rw [hu] at hv
            cases hv
            rw [List.getElem?_eq_getElem hc] at hs
            cases hs
            exact List.getElem?_set_self hcl
          · rw [List.getElem?_set_ne (Ne.symm hxc), hv]
            obtain ⟨w, l', w1, w2, w3⟩ := hst x s hs
            rw [hst2 x hx, w1] at hv
            cases hv
            have : l' = [] := by
              refine w3 (fun g' hg' hhd => ?_)
              obtain ⟨j, hj, rfl⟩ := List.getElem_of_mem hg'
              have hxj : x ∈ groups[j] := List.mem_of_mem_head? hhd
              by_cases hij : j = i
              · subst hij
                rw [hg] at hhd
                simp only [List.head?_cons, Option.some.injEq] at hhd
                exact hxc hhd.symm
              · exact h.disjoint (List.getElem?_eq_getElem hj) (List.getElem?_eq_getElem hi') hij hxj (by rw [hg]; exact hx)
            rw [this, List.append_nil] at w2
            rw [← w2]
            rfl)
    (by
      rintro i _ st1 st2 hl hag ⟨h1, h2⟩
      exact ⟨by rw [hl, h1], fun x hx => by rw [hag x hx, h2 x hx]⟩)
    (by
      intro i _ a b a' b' ha hb h x hx s u hs hu
      rw [hb x hx]
      exact h x hx s u hs (by rw [← ha x hx, hu]))
    (fun i _ => ⟨rfl, fun _ _ => rfl⟩)
  refine ⟨out, e, hl', fun i s u hs hu => ?_⟩
  by_cases hg : i ∈ groups.flatten
  · obtain ⟨g, hg, hi⟩ := List.mem_flatten.1 hg
    obtain ⟨j, hj, rfl⟩ := List.getElem_of_mem hg
    have := hq j (ho.mem_iff.2 (List.mem_range.2 hj))
    rw [hall j hj] at this
    exact this i hi s u hs hu
  · rw [hf i (fun j hj hij => hg (by
      rw [hall j (hmemo j hj)] at hij
      exact List.mem_flatten.2 ⟨_, List.getElem_mem _, hij⟩)), hu]
    obtain ⟨w, l', w1, w2, w3⟩ := hst i s hs
    rw [hu] at w1
    cases w1
    have : l' = [] := w3 (fun g' hg' hhd => hg (List.mem_flatten.2 ⟨g', hg', List.mem_of_mem_head? hhd⟩))
    rw [this, List.append_nil] at w2
    rw [← w2]
    rfl

/-! ## The hierarchy -/

theorem inside_contains {subs : List (Sub K D)} {nold : Nat} {groups heads : List (List Nat)} {field : List Nat}
    (h : Layout subs nold groups heads field) {c : Nat} {t : List Nat} {k rest : Forest Nat} (hg : c :: t ∈ groups)
    (hs : (Forest.cons c k rest).Shows (idxKids subs)) (hn : (Forest.cons c k rest).nodes.Perm (c :: t))
    (hr : (c :: t).filter (isTop subs) = c :: rest.roots) {a b : Nat}
    (hab : Inside a b (Forest.cons c (k ++ rest) .nil)) : Contains subs groups a b := by
  have hgn : (c :: t).Nodup := by
    have := h.nodup
    rw [List.nodup_flatten] at this
    exact this.1 _ hg
  have hfn : (Forest.cons c k rest).nodes.Nodup := hn.nodup_iff.2 hgn
  have hkids : ∀ {f : Forest Nat} {x y : Nat}, f.Shows (idxKids subs) → IsChild x y f → Contains subs groups x y := by
    intro f x y hf hxy
    obtain ⟨l, ⟨s, h1, h2⟩, h3⟩ := isChild_kids hf hxy
    exact .nested x y s h1 (by rw [h2]; exact List.mem_map.2 ⟨y, h3, rfl⟩)
  have hchild : ∀ x y, IsChild x y (Forest.cons c (k ++ rest) .nil) → Contains subs groups x y := by
    rintro x y (⟨rfl, hxy⟩ | hxy | hxy)
    · rw [roots_append, List.mem_append] at hxy
      rcases hxy with hxy | hxy
      · exact hkids hs (Or.inl ⟨rfl, hxy⟩)
      · have hy : y ∈ (c :: t).filter (isTop subs) := by rw [hr]; exact List.mem_cons_of_mem _ hxy
        rw [List.mem_filter] at hy
        have hne : y ≠ c := by
          rintro rfl
          rw [nodes_cons, List.nodup_cons, List.mem_append] at hfn
          exact hfn.1 (Or.inr (roots_subset _ hxy))
        have htop := hy.2
        unfold isTop at htop
        cases hsy : subs[y]? with
        | none => rw [hsy] at htop; cases htop
        | some s =>
          rw [hsy] at htop
          exact .top c y _ s hg rfl hy.1 hne hsy (by simpa using htop)
    · have happ : ∀ (f g : Forest Nat), f.Shows (idxKids subs) → g.Shows (idxKids subs) → IsChild x y (f ++ g) →
          Contains subs groups x y := fun f g hf hg' hxy => hkids ((shows_append _ f g).2 ⟨hf, hg'⟩) hxy
      exact happ k rest hs.2.1 hs.2.2 hxy
    · exact hxy.elim
  have key : ∀ {x y : Nat}, Relation.TransGen (fun a b => IsChild a b (Forest.cons c (k ++ rest) .nil)) x y →
      Contains subs groups x y := by
    intro x y hxy
    induction hxy with
    | single h1 => exact hchild _ _ h1
    | tail _ h1 ih => exact .trans _ _ _ ih (hchild _ _ h1)
  exact key (inside_transGen hab)

/-- Containment stays within a host. -/
theorem contains_group {subs : List (Sub K D)} {nold : Nat} {groups heads : List (List Nat)} {field : List Nat}
    (h : Layout subs nold groups heads field) {a b : Nat} (hab : Contains subs groups a b) :
    ∃ g ∈ groups, a ∈ g ∧ b ∈ g := by
  induction hab with
  | nested a b s hsa hb =>
    have ha : a < nold ∧ a ∉ field := by
      constructor
      · by_contra hc
        rw [h.lone a s hsa (Or.inr (by omega))] at hb
        cases hb
      · intro hc
        rw [h.lone a s hsa (Or.inl hc)] at hb
        cases hb
    have hag : a ∈ groups.flatten := by
      have := h.all.mem_iff.2 (List.mem_range.2 ha.1)
      rw [List.mem_append] at this
      exact this.resolve_right ha.2
    obtain ⟨g, hg, hag⟩ := List.mem_flatten.1 hag
    refine ⟨g, hg, hag, ?_⟩
    obtain ⟨i, hi, rfl⟩ := List.getElem_of_mem hg
    have hforest := (List.forall₂_iff_get.1 h.forests).2 i hi (by have := h.forests.length_eq; omega)
    simp only [List.get_eq_getElem] at hforest
    revert hforest hag
    generalize groups[i] = g'
    generalize heads[i]'_ = hs'
    intro hag hforest
    cases hforest with
    | empty => cases hag
    | tops c t k rest hsh hnodes =>
      have han := hnodes.mem_iff.2 hag
      obtain ⟨l, hl⟩ := shows_mem hsh han
      have hl' := hl
      obtain ⟨s', hs', e⟩ := hl'
      rw [hsa] at hs'
      cases hs'
      rw [e] at hb
      obtain ⟨x, hx, hxe⟩ := List.mem_map.1 hb
      have : x = b := by exact_mod_cast hxe
      subst this
      exact hnodes.mem_iff.1 (isChild_mem (kids_isChild (idxKids_unique _) hl hx hsh han)).2
  | top a b g s hg' ha' hb hne hsb hrk => exact ⟨g, hg', List.mem_of_mem_head? ha', hb⟩
  | trans a b d _ _ ih1 ih2 =>
    obtain ⟨g, hg, h1, h2⟩ := ih1
    obtain ⟨g', hg', h3, h4⟩ := ih2
    have : g = g' := by
      obtain ⟨i, hi⟩ := List.getElem?_of_mem hg
      obtain ⟨j, hj⟩ := List.getElem?_of_mem hg'
      by_cases hij : i = j
      · subst hij
        rw [hi] at hj
        exact Option.some.inj hj
      · exact absurd h3 (h.disjoint hi hj hij h2)
    subst this
    exact ⟨g, hg, h1, h4⟩

/-- After gluing, nests stay within a host. -/
theorem glued_nested {before glued : List (Sub K D)} {nold : Nat} {groups heads : List (List Nat)} {field : List Nat}
    (h : Layout before nold groups heads field)
    (hg1 : ∀ (i : Nat) (s : Sub K D), before[i]? = some s → ∃ s', glued[i]? = some s' ∧ GluedSub groups i s s')
    (hl : glued.length = before.length)
    (hg2 : List.Forall₂ (GluedTree before glued) groups heads) {i : Nat} {s : Sub K D} (hs : glued[i]? = some s)
    {c : Int} (hc : c ∈ s.nested) :
    ∃ x : Nat, c = (x : Int) ∧ ∃ g ∈ groups, i ∈ g ∧ x ∈ g := by
  have hig : i ∈ groups.flatten := by
    by_contra hno
    have hi : i < before.length := by rw [← hl]; exact (List.getElem?_eq_some_iff.1 hs).1
    obtain ⟨s', h1, l, h2, h3⟩ := hg1 i _ (List.getElem?_eq_getElem hi)
    rw [hs] at h1
    cases h1
    have hl0 : l = [] := h3 (fun g' hg' hhd => hno (List.mem_flatten.2 ⟨g', hg', List.mem_of_mem_head? hhd⟩))
    have hn0 : before[i].nested = [] := by
      refine h.lone i _ (List.getElem?_eq_getElem hi) ?_
      by_cases hin : i < nold
      · left
        have := h.all.mem_iff.2 (List.mem_range.2 hin)
        rw [List.mem_append] at this
        exact this.resolve_left hno
      · right; omega
    rw [h2, Sub.withNested_nested, hl0, hn0] at hc
    cases hc
  obtain ⟨g, hg, hig⟩ := List.mem_flatten.1 hig
  obtain ⟨j, hj, rfl⟩ := List.getElem_of_mem hg
  have hforest := (List.forall₂_iff_get.1 hg2).2 j hj (by have := h.forests.length_eq; omega)
  simp only [List.get_eq_getElem] at hforest
  suffices hsuff : ∃ x : Nat, c = (x : Int) ∧ x ∈ groups[j] by
    obtain ⟨x, h1, h2⟩ := hsuff
    exact ⟨x, h1, _, hg, hig, h2⟩
  revert hforest hig
  generalize groups[j] = g'
  generalize heads[j]'_ = hs'
  intro hig hforest
  cases hforest with
  | empty => cases hig
  | tops c0 t k rest hsh hnodes htree =>
    have hTn : (Forest.cons c0 (k ++ rest) .nil).nodes.Perm (c0 :: t) := by
      refine List.Perm.trans (List.Perm.of_eq ?_) hnodes
      simp [nodes_cons, nodes_append]
    have han := hTn.mem_iff.2 hig
    obtain ⟨l, hl⟩ := shows_mem htree han
    have hl' := hl
    obtain ⟨s', hs', e⟩ := hl'
    rw [hs] at hs'
    cases hs'
    rw [e] at hc
    obtain ⟨x, hx, hxe⟩ := List.mem_map.1 hc
    exact ⟨x, hxe.symm, hTn.mem_iff.1 (isChild_mem (kids_isChild (idxKids_unique _) hl hx htree han)).2⟩

/-! ## Detection -/

theorem trapsOf_ok (sunk : Nat → Nat → Bool) (fuel : Nat) {subs : List (Sub K D)} {hosts : List Int} {Q : Nat → Option Nat → Prop} :
    ∀ (is : List Nat), (∀ i ∈ is, ∃ r, trapOf sunk fuel subs hosts i = .ok r ∧ Q i r) →
    ∃ ts, trapsOf sunk fuel subs hosts is = .ok ts ∧ List.Forall₂ Q is ts := by
  intro is
  induction is with
  | nil => intro _; exact ⟨[], rfl, .nil⟩
  | cons i is ih =>
    intro h
    obtain ⟨r, e, hq⟩ := h i (by simp)
    obtain ⟨ts, e2, h2⟩ := ih (fun j hj => h j (by simp [hj]))
    exact ⟨r :: ts, by rw [trapsOf, e, Outcome.bind_ok, e2, Outcome.bind_ok], .cons hq h2⟩

/-- The sink found for one subhalo. -/
theorem trapOf_ok (sunk : Nat → Nat → Bool) {before glued : List (Sub K D)} {nold : Nat} {groups heads : List (List Nat)} {field : List Nat}
    (h : Layout before nold groups heads field)
    (hg1 : ∀ (i : Nat) (s : Sub K D), before[i]? = some s → ∃ s', glued[i]? = some s' ∧ GluedSub groups i s s')
    (hl : glued.length = before.length)
    (hg2 : List.Forall₂ (GluedTree before glued) groups heads) {hosts : List Int} (hh : HostsOf glued hosts) {fuel : Nat}
    (hfuel : before.length < fuel) {i : Nat} (hi : i < before.length) :
    ∃ r, trapOf sunk fuel glued hosts i = .ok r ∧
      ((before[i].sinkTrackId ≠ nullTrack → r = none) ∧
       (before[i].sinkTrackId = nullTrack → SinkFound (Contains before groups) sunk before i r)) := by
  obtain ⟨s', h1, l, h2, _⟩ := hg1 i _ (List.getElem?_eq_getElem hi)
  have hsink : s'.sinkTrackId = before[i].sinkTrackId := by rw [h2]; rfl
  rw [trapOf, get_some h1, Outcome.bind_ok, hsink]
  by_cases hn : before[i].sinkTrackId ≠ nullTrack
  · exact ⟨none, by rw [if_pos hn], fun _ => rfl, fun h => absurd h hn⟩
  · rw [if_neg hn]
    rw [not_not] at hn
    have hhi : i < hosts.length := by rw [hh.length, hl]; exact hi
    rw [get_some (List.getElem?_eq_getElem hhi), Outcome.bind_ok]
    have hback : ∀ (q : Nat) (t : Sub K D), before[q]? = some t → ∃ t', glued[q]? = some t' ∧ t'.nbound = t.nbound := by
      intro q t ht
      obtain ⟨t', q1, l', q2, _⟩ := hg1 q t ht
      exact ⟨t', q1, by rw [q2]; rfl⟩
    by_cases hig : i ∈ groups.flatten
    · obtain ⟨g, hg, hig⟩ := List.mem_flatten.1 hig
      obtain ⟨j, hj, rfl⟩ := List.getElem_of_mem hg
      have hjh : j < heads.length := by have := h.forests.length_eq; omega
      have hforest := (List.forall₂_iff_get.1 hg2).2 j hj hjh
      simp only [List.get_eq_getElem] at hforest
      have hgn : groups[j].Nodup := by
        have := h.nodup
        rw [List.nodup_flatten] at this
        exact this.1 _ hg
      have hheads : heads[j] = groups[j].filter (isTop before) := by
        have := h.heads_
        simp only [this, List.getElem_map]
      have hlt : ∀ x ∈ groups[j], x < before.length := fun x hx => lt_of_lt_of_le (h.lt hg hx) h.le
      have hcl : ∀ (a : Nat) (s : Sub K D) (x : Nat), glued[a]? = some s → (x : Int) ∈ s.nested → x ∈ groups[j] → a ∈ groups[j] := by
        intro a s x hs hx hxg
        obtain ⟨y, hy, g', hg', ha, hyg⟩ := glued_nested h hg1 hl hg2 hs hx
        have : y = x := by exact_mod_cast hy.symm
        subst this
        obtain ⟨j', hj', rfl⟩ := List.getElem_of_mem hg'
        by_cases hjj : j' = j
        · subst hjj; exact ha
        · exact absurd hxg (h.disjoint (List.getElem?_eq_getElem hj') (List.getElem?_eq_getElem hj) hjj hyg)
      revert hforest hheads hig hgn hcl hlt hg
      generalize groups[j] = g'
      generalize heads[j] = hs'
      intro hg hig hforest hgn hheads hlt hcl
      cases hforest with
      | empty => cases hig
      | tops c t k rest hsh hnodes htree =>
        set T := Forest.cons c (k ++ rest) Forest.nil with hT
        have hTn : T.nodes.Perm (c :: t) := by
          refine List.Perm.trans (List.Perm.of_eq ?_) hnodes
          simp [hT, nodes_cons, nodes_append]
        have hTnd : T.nodes.Nodup := hTn.nodup_iff.2 hgn
        obtain ⟨l1, l3, hpp⟩ := List.append_of_mem ((post_perm T).mem_iff.2 (hTn.mem_iff.2 hig))
        have hlen : l3.length < before.length := by
          have h3 : T.post.length ≤ before.length := by
            rw [(post_perm T).length_eq, hTn.length_eq]
            have hsub : (c :: t).Subperm (List.range before.length) :=
              List.Nodup.subperm hgn (fun x hx => List.mem_range.2 (hlt x hx))
            simpa using hsub.length_le
          rw [hpp] at h3
          simp at h3
          omega
        obtain ⟨r, e, hr⟩ := findSink_ok sunk hh hTnd htree
          (fun a s x hs hx hxT => hTn.mem_iff.2 (hcl a s x hs hx (hTn.mem_iff.1 hxT)))
          (fun x hx => by rw [hl]; exact hlt x (hTn.mem_iff.1 hx)) i l3.length i l1 l3 fuel _ (le_refl _) hpp (by omega)
          (List.getElem?_eq_getElem hhi)
        refine ⟨r, e, fun h' => absurd hn h', fun _ => ?_⟩
        have hci : ∀ {a b : Nat}, Contains before groups a b → b ∈ c :: t → Inside a b T := by
          intro a b hab hb
          obtain ⟨g', hg', ha1, hb1⟩ := contains_group h hab
          have : g' = c :: t := by
            obtain ⟨i1, h1⟩ := List.getElem?_of_mem hg'
            obtain ⟨i2, h2⟩ := List.getElem?_of_mem hg
            by_cases hij : i1 = i2
            · subst hij
              rw [h1] at h2
              exact Option.some.inj h2
            · exact absurd hb (h.disjoint h1 h2 hij hb1)
          subst this
          exact contains_inside h hg hsh hnodes hheads.symm hab ha1
        cases r with
        | none =>
          intro q t' hq ht hres
          obtain ⟨t'', b1, b2⟩ := hback q t' ht
          have := hr q t'' (hci hq hig) b1
          unfold Resolved at hres
          by_contra hcon
          exact this ⟨by omega, by simpa using hcon⟩
        | some p =>
          obtain ⟨c1, ⟨t', c2, c3, c4⟩, c5⟩ := hr
          have hpm : p ∈ c :: t := hTn.mem_iff.1 (inside_mem c1).1
          obtain ⟨t'', b1, b2⟩ := hback p _ (List.getElem?_eq_getElem (hlt p hpm))
          rw [c2] at b1
          cases b1
          refine ⟨inside_contains h hg hsh hnodes hheads.symm c1, ⟨_, List.getElem?_eq_getElem (hlt p hpm), ?_⟩, c4, ?_⟩
          · unfold Resolved; omega
          · intro q u hq hpq hu hres
            obtain ⟨t'', b1, b2⟩ := hback q u hu
            have hiq := hci hq hig
            have := c5 q t'' hiq (hci hpq (hTn.mem_iff.1 (inside_mem hiq).1)) b1
            unfold Resolved at hres
            by_contra hcon
            exact this ⟨by omega, by simpa using hcon⟩
    · have hno : hosts[i] = -1 := by
        rcases hh.host i (by rw [hl]; exact hi) with ⟨a1, _⟩ | ⟨a, s, a1, a2, a3⟩
        · rw [List.getElem?_eq_getElem hhi] at a1
          exact Option.some.inj a1
        · obtain ⟨y, hy, g', hg', ha, hyg⟩ := glued_nested h hg1 hl hg2 a2 a3
          have : y = i := by exact_mod_cast hy.symm
          subst this
          exact absurd (List.mem_flatten.2 ⟨g', hg', hyg⟩) hig
      obtain ⟨fuel, rfl⟩ : ∃ f, fuel = f + 1 := ⟨fuel - 1, by omega⟩
      refine ⟨none, by rw [findSink, hno, if_pos (by decide)], fun _ => rfl, fun _ => ?_⟩
      intro q t hq
      obtain ⟨g', hg', _, hb⟩ := contains_group h hq
      exact absurd (List.mem_flatten.2 ⟨g', hg', hb⟩) hig

/-- The state after `DetectTraps`. -/
structure Detected (sunk : Nat → Nat → Bool) (snap : Int) (groups heads : List (List Nat)) (before st : List (Sub K D))
    (merged : List Nat) (traps : Nat → Option Nat) : Prop where
  length : st.length = before.length
  each : ∀ (i : Nat) (s : Sub K D), before[i]? = some s → ∃ l, st[i]? = some (recordTrap snap (s.withNested (s.nested ++ l)) (traps i)) ∧
    ((∀ g ∈ groups, g.head? ≠ some i) → l = [])
  old : ∀ (i : Nat) (s : Sub K D), before[i]? = some s → s.sinkTrackId ≠ nullTrack → traps i = none
  found : ∀ (i : Nat) (s : Sub K D), before[i]? = some s → s.sinkTrackId = nullTrack → SinkFound (Contains before groups) sunk before i (traps i)
  merged_ : ∀ p, p ∈ merged ↔ ∃ (i : Nat) (s : Sub K D), before[i]? = some s ∧ 1 < s.nbound ∧ traps i = some p
  beyond : ∀ i, before[i]? = none → traps i = none
  tree : List.Forall₂ (GluedTree before st) groups heads

theorem recordTrap_nested (snap : Int) (s : Sub K D) (t : Option Nat) : (recordTrap snap s t).nested = s.nested := by
  cases t <;> rfl

theorem gluedTree_nested {before a b : List (Sub K D)} {g hs : List Nat} (h : GluedTree before a g hs)
    (hk : ∀ x ∈ g, ∀ s, a[x]? = some s → ∃ s', b[x]? = some s' ∧ s'.nested = s.nested) : GluedTree before b g hs := by
  cases h with
  | empty => exact .empty
  | tops c t k rest h1 h2 h3 =>
    refine .tops c t k rest h1 h2 (shows_congr _ ?_ h3)
    rintro x hx l ⟨s, hs, e⟩
    obtain ⟨s', q1, q2⟩ := hk x (h2.mem_iff.1 (by simpa [nodes_cons, nodes_append] using hx)) s hs
    exact ⟨s', q1, by rw [q2, e]⟩

theorem forall₂_range {α : Type} {Q : Nat → α → Prop} {n : Nat} {ts : List α} (h : List.Forall₂ Q (List.range n) ts) :
    ts.length = n ∧ ∀ i (hi : i < ts.length), Q i ts[i] := by
  have hl := h.length_eq
  rw [List.length_range] at hl
  refine ⟨hl.symm, fun i hi => ?_⟩
  have := (List.forall₂_iff_get.1 h).2 i (by rw [List.length_range]; omega) hi
  simpa using this

theorem detect_ok (sunk : Nat → Nat → Bool) (snap : Int) {before : List (Sub K D)} {nold : Nat} {groups heads : List (List Nat)} {field : List Nat}
    (h : Layout before nold groups heads field) {fuel : Nat} (hfuel : before.length < fuel) {order each : List Nat}
    (ho : order.Perm (List.range groups.length)) (he : each.Perm (List.range before.length)) :
    ∃ glued hosts st merged traps, runAll (glueHost groups heads) order before = .ok glued ∧
      runAll (fillHost glued) each (List.replicate glued.length (-1)) = .ok hosts ∧
      detectTraps sunk snap fuel hosts glued = .ok (st, merged) ∧ Detected sunk snap groups heads before st merged traps := by
  obtain ⟨glued, e1, hl, hg1, hg2⟩ := glueAll_ok h ho
  obtain ⟨hosts, e2, hh⟩ := fillHosts_ok (subs := glued) (fun i s hs c hc => by
    obtain ⟨x, rfl, g, hg, _, hx⟩ := glued_nested h hg1 hl hg2 hs hc
    have := lt_of_lt_of_le (h.lt hg hx) h.le
    omega) (each := each) (by rw [hl]; exact he)
  obtain ⟨ts, e3, hts⟩ := trapsOf_ok sunk fuel (subs := glued) (hosts := hosts)
    (Q := fun i r => ∀ s, before[i]? = some s → (s.sinkTrackId ≠ nullTrack → r = none) ∧
       (s.sinkTrackId = nullTrack → SinkFound (Contains before groups) sunk before i r)) (List.range glued.length) (by
    intro i hi
    rw [List.mem_range, hl] at hi
    obtain ⟨r, q1, q2⟩ := trapOf_ok sunk h hg1 hl hg2 hh hfuel hi
    refine ⟨r, q1, fun s hs => ?_⟩
    rw [List.getElem?_eq_getElem hi] at hs
    cases hs
    exact q2)
  obtain ⟨htl, htq⟩ := forall₂_range hts
  have htr : ∀ i (hi : i < ts.length), (ts[i]?.join) = ts[i] := fun i hi => by
    rw [List.getElem?_eq_getElem hi]; rfl
  have hst : ∀ (i : Nat) (s : Sub K D), before[i]? = some s →
      ∃ l, (glued.zipWith (recordTrap snap) ts)[i]? = some (recordTrap snap (s.withNested (s.nested ++ l)) ts[i]?.join) ∧
      ((∀ g ∈ groups, g.head? ≠ some i) → l = []) := by
    intro i s hs
    obtain ⟨s', q1, l, q2, q3⟩ := hg1 i s hs
    have hi : i < ts.length := by rw [htl, hl]; exact (List.getElem?_eq_some_iff.1 hs).1
    refine ⟨l, ?_, q3⟩
    rw [List.getElem?_zipWith, q1, List.getElem?_eq_getElem hi, q2]
    rfl
  refine ⟨glued, hosts, glued.zipWith (recordTrap snap) ts,
    (glued.zip ts).filterMap (fun x => if 1 < x.1.nbound then x.2 else none), fun i => ts[i]?.join, e1, e2, ?_,
    ⟨by rw [List.length_zipWith, htl]; omega, hst, ?_, ?_, ?_, ?_, ?_⟩⟩
  · rw [detectTraps, e3, Outcome.bind_ok]
  · intro i s hs hn
    have hi : i < ts.length := by rw [htl, hl]; exact (List.getElem?_eq_some_iff.1 hs).1
    rw [htr i hi]
    exact (htq i hi s hs).1 hn
  · intro i s hs hn
    have hi : i < ts.length := by rw [htl, hl]; exact (List.getElem?_eq_some_iff.1 hs).1
    rw [htr i hi]
    exact (htq i hi s hs).2 hn
  · intro p
    rw [List.mem_filterMap]
    constructor
    · rintro ⟨⟨u, t⟩, hm, hx⟩
      obtain ⟨i, hi, hie⟩ := List.getElem_of_mem hm
      rw [List.length_zip] at hi
      rw [List.getElem_zip] at hie
      cases hie
      simp only at hx
      split at hx
      · rename_i hb
        have hib : i < before.length := by omega
        obtain ⟨s', q1, l, q2, _⟩ := hg1 i _ (List.getElem?_eq_getElem hib)
        refine ⟨i, _, List.getElem?_eq_getElem hib, ?_, ?_⟩
        · rw [List.getElem?_eq_getElem (by omega)] at q1
          rw [Option.some.inj q1, q2] at hb
          exact hb
        · rw [htr i (by omega), hx]
      · cases hx
    · rintro ⟨i, s, hs, hb, ht⟩
      have hib := (List.getElem?_eq_some_iff.1 hs).1
      obtain ⟨s', q1, l, q2, _⟩ := hg1 i s hs
      rw [htr i (by omega)] at ht
      refine ⟨(glued[i], ts[i]), ?_, ?_⟩
      · rw [List.mem_iff_getElem]
        exact ⟨i, by rw [List.length_zip]; omega, by rw [List.getElem_zip]⟩
      · rw [List.getElem?_eq_getElem (by omega)] at q1
        simp only
        rw [Option.some.inj q1, q2, if_pos (show 1 < (s.withNested (s.nested ++ l)).nbound from hb), ht]
  · intro i hi
    rw [List.getElem?_eq_none_iff] at hi
    rw [List.getElem?_eq_none (by omega)]
    rfl
  · refine hg2.imp ?_
    intro g hs hgt
    refine gluedTree_nested hgt ?_
    intro x hx s hs'
    have hxg : x < glued.length := (List.getElem?_eq_some_iff.1 hs').1
    refine ⟨recordTrap snap s ts[x]?.join, ?_, recordTrap_nested _ _ _⟩
    rw [List.getElem?_zipWith, hs', List.getElem?_eq_getElem (by omega)]
    rfl

/-! ## The whole step -/

theorem SinkChain.trans_ {f : Nat → Option Nat} {a b c : Nat} (h1 : SinkChain f a b) (h2 : SinkChain f b c) : SinkChain f a c := by
  induction h2 with
  | one i q h => exact .more i q a h h1
  | more i p q h _ ih => exact .more i p a h (ih h1)

/-- What is known of a subhalo between `RefineParticles` and `UpdateTracks`. -/
structure Settled (minNum : Nat) (s : Sub K D) : Prop where
  alive : Alive s → minNum ≤ s.nbound ∧ s.sinkTrackId = nullTrack
  le : s.nbound ≤ s.particles.length
  dead : ¬ Alive s → s.nbound ≤ 1 ∧ s.particles.length = s.nbound

def mergesOf (on : Bool) (before : List (Sub K D)) (traps : Nat → Option Nat) (i : Nat) : Option Nat :=
  match on, before[i]? with
  | true, some s => if s.snapDeath = nullSnap then traps i else none
  | _, _ => none

theorem mergesOf_iff {on : Bool} {before : List (Sub K D)} {traps : Nat → Option Nat} {i : Nat} {s : Sub K D}
    (hs : before[i]? = some s) (p : Nat) : mergesOf on before traps i = some p ↔ on = true ∧ Alive s ∧ traps i = some p := by
  unfold mergesOf Alive
  rw [hs]
  cases on with
  | false => simp
  | true =>
    simp only [true_and]
    split
    · rename_i h; simp [h]
    · rename_i h; simp [h]

/-- The subhaloes `mid` after the loop over the hosts and `out` after the sinks are unbound again. -/
def TrappedMerged [MassSum K] (minNum : Nat) (mass : D → K) (snap : Int) (before st mid out : List (Sub K D)) (traps : Nat → Option Nat) : Prop :=
  ∀ (i : Nat) (s u : Sub K D), before[i]? = some s → st[i]? = some u →
        ∃ v v', mid[i]? = some v ∧ out[i]? = some v' ∧
          ((∃ p, mergesOf true before traps i = some p) → ∃ p rest, s.particles = p :: rest ∧ v = mergedAway mass snap p u) ∧
          (mergesOf true before traps i = none → ∃ extra n, v = enlarged extra n u ∧ s.nbound ≤ n ∧ (extra.map Particle.id).Nodup ∧
            (∀ x ∈ extra, x.id ∉ sourceIds s ∧ ∃ (k : Nat) (t : Sub K D), before[k]? = some t ∧ SinkChain (mergesOf true before traps) i k ∧ x ∈ t.particles) ∧
            ((∀ j, mergesOf true before traps j ≠ some i) → extra = [] ∧ n = s.nbound)) ∧
          ((∃ j, mergesOf true before traps j = some i) → RefinedSub minNum mass snap v v' ∧
            ∃ w, w.Perm v.particles ∧ v'.particles <+: w) ∧
          ((∀ j, mergesOf true before traps j ≠ some i) → v' = v)

theorem mergeTrapped_ok [LinearOrder E] [Zero E] [MassSum K] {cfg : UnbindConfig} {env : Nat → UnbindEnv K D E}
    (hok : RefineOk cfg env) (hrelax : Keeps cfg.fl cfg.relax) (mass : D → K) (hmass : ∀ i, (env i).mass = mass) (sunk : Nat → Nat → Bool)
    {snap : Int} (hsnap : snap ≠ nullSnap) {before st : List (Sub K D)} {nold : Nat} {groups heads : List (List Nat)} {field : List Nat}
    (h : Layout before nold groups heads field) (hset : ∀ s ∈ before, Settled cfg.minNum s) {merged : List Nat} {traps : Nat → Option Nat}
    (hd : Detected sunk snap groups heads before st merged traps) {fuel : Nat} (hfuel : before.length < fuel) {order each : List Nat}
    (ho : order.Perm (List.range groups.length)) (he : each.Perm (List.range before.length)) :
    ∃ (out mid : List (Sub K D)), mergeTrapped cfg env mass snap fuel order each groups merged st = .ok out ∧ out.length = before.length ∧
      (∀ (i : Nat) (s u : Sub K D), before[i]? = some s → st[i]? = some u →
        ∃ v v', mid[i]? = some v ∧ out[i]? = some v' ∧
          ((∃ p, mergesOf true before traps i = some p) → ∃ p rest, s.particles = p :: rest ∧ v = mergedAway mass snap p u) ∧
          (mergesOf true before traps i = none → ∃ extra n, v = enlarged extra n u ∧ s.nbound ≤ n ∧ (extra.map Particle.id).Nodup ∧
            (∀ x ∈ extra, x.id ∉ sourceIds s ∧ ∃ (k : Nat) (t : Sub K D), before[k]? = some t ∧ SinkChain (mergesOf true before traps) i k ∧ x ∈ t.particles) ∧
            ((∀ j, mergesOf true before traps j ≠ some i) → extra = [] ∧ n = s.nbound)) ∧
          ((∃ j, mergesOf true before traps j = some i) → RefinedSub cfg.minNum mass snap v v' ∧
            ∃ w, w.Perm v.particles ∧ v'.particles <+: w) ∧
          ((∀ j, mergesOf true before traps j ≠ some i) → v' = v)) ∧
      (∀ (i : Nat) (s : Sub K D) (p : Nat), before[i]? = some s → mergesOf true before traps i = some p → ∀ x ∈ sourceIds s,
        ∃ q, SinkChain (mergesOf true before traps) q i ∧ mergesOf true before traps q = none ∧
          ∃ v, mid[q]? = some v ∧ x ∈ sourceIds v) ∧
      ((∀ i k j, (env i).energy k j < 0) → ∀ (i : Nat) (v' : Sub K D), (∃ j, mergesOf true before traps j = some i) → out[i]? = some v' →
        v'.nbound = v'.particles.length) ∧
      runAll (mergeHost mass snap fuel groups) order st = .ok mid := by
  set M := mergesOf true before traps with hM
  have hmin := hok.min
  have hMiff : ∀ (i : Nat) (s : Sub K D), before[i]? = some s → ∀ p, M i = some p ↔ Alive s ∧ traps i = some p := by
    intro i s hs p
    rw [hM, mergesOf_iff hs]
    simp
  have hMbeyond : ∀ i, before[i]? = none → M i = none := by
    intro i hi
    simp only [hM, mergesOf, hi]
  -- who dies
  have hdy : ∀ (i : Nat) (s u : Sub K D), before[i]? = some s → st[i]? = some u →
      (Dying u ↔ ∃ p, M i = some p) ∧ u.particles = s.particles ∧ u.nbound = s.nbound ∧ u.snapDeath = s.snapDeath ∧
      (∀ p, traps i = some p → u.sinkTrackId = (p : Int)) := by
    intro i s u hs hu
    obtain ⟨l, q1, _⟩ := hd.each i s hs
    rw [hu] at q1
    have hse := hset s (List.mem_of_getElem? hs)
    cases ht : traps i with
    | none =>
      rw [ht] at q1
      have hue : u = s.withNested (s.nested ++ l) := Option.some.inj q1
      subst hue
      refine ⟨⟨?_, ?_⟩, rfl, rfl, rfl, fun p hp => by cases hp⟩
      · rintro ⟨d1, d2⟩
        exact absurd (hse.alive d2).2 d1
      · rintro ⟨p, hp⟩
        rw [((hMiff i s hs p).1 hp).2] at ht
        cases ht
    | some p =>
      rw [ht] at q1
      have hue : u = recordTrap snap (s.withNested (s.nested ++ l)) (some p) := Option.some.inj q1
      subst hue
      refine ⟨⟨?_, ?_⟩, rfl, rfl, rfl, fun p' hp => by cases hp; rfl⟩
      · rintro ⟨_, d2⟩
        exact ⟨p, (hMiff i s hs p).2 ⟨d2, ht⟩⟩
      · rintro ⟨p', hp⟩
        refine ⟨?_, ((hMiff i s hs p').1 hp).1⟩
        show (p : Int) ≠ nullTrack
        unfold nullTrack
        omega
  have hfoundc : ∀ (i : Nat) (s : Sub K D) (p : Nat), before[i]? = some s → M i = some p →
      Contains before groups p i ∧ 1 < s.nbound ∧ s.particles ≠ [] := by
    intro i s p hs hp
    obtain ⟨a1, a2⟩ := (hMiff i s hs p).1 hp
    have hse := hset s (List.mem_of_getElem? hs)
    have hal := hse.alive a1
    have := hd.found i s hs hal.2
    rw [a2] at this
    refine ⟨this.1, by omega, ?_⟩
    intro hnil
    have := hse.le
    rw [hnil] at this
    simp at this
    omega
  have hstget : ∀ i, i < before.length → ∃ s u, before[i]? = some s ∧ st[i]? = some u := fun i hi =>
    ⟨_, _, List.getElem?_eq_getElem hi, List.getElem?_eq_getElem (by rw [hd.length]; exact hi)⟩
  have hlen : groups.length = heads.length := h.forests.length_eq
  have hmemo : ∀ i ∈ order, i < groups.length := fun i hi => List.mem_range.1 (ho.mem_iff.1 hi)
  have hall : ∀ i (hi : i < groups.length), (groups.getD i []) = groups[i] := fun i hi => by
    simp [List.getD, hi]
  obtain ⟨mid, e1, hl1, hf1, hq1⟩ := runAll_local (act := mergeHost mass snap fuel groups) (fun i => groups.getD i [])
    (Pre := fun i st' => st'.length = st.length ∧ Agree (groups.getD i []) st st')
    (Q := fun i a b => MergedGroup mass snap (SinkChain M) (groups.getD i []) a b) order st (ho.nodup_iff.2 List.nodup_range)
    (by
      intro i hi j hj hij x hx
      have hi' := hmemo i hi
      have hj' := hmemo j hj
      rw [hall i hi'] at hx
      rw [hall j hj']
      exact h.disjoint (List.getElem?_eq_getElem hi') (List.getElem?_eq_getElem hj') hij hx)
    (by
      rintro j hj st' ⟨hst1, hst2⟩
      have hj' := hmemo j hj
      have hg : groups[j] ∈ groups := List.getElem_mem hj'
      rw [hall j hj'] at hst2 ⊢
      have hgn : groups[j].Nodup := by
        have := h.nodup
        rw [List.nodup_flatten] at this
        exact this.1 _ hg
      have hheads : heads[j]'(by omega) = groups[j].filter (isTop before) := by
        have := h.heads_
        simp only [this, List.getElem_map]
      have hlt : ∀ x ∈ groups[j], x < before.length := fun x hx => lt_of_lt_of_le (h.lt hg hx) h.le
      have hforest := (List.forall₂_iff_get.1 hd.tree).2 j hj' (by omega)
      simp only [List.get_eq_getElem] at hforest
      have hforest' := gluedTree_nested hforest (b := st') (fun x hx s hs => ⟨s, by rw [hst2 x hx, hs], rfl⟩)
      refine mergeHost_ok mass snap (SinkChain M) (fun a b c => SinkChain.trans_) (List.getElem?_eq_getElem hj') hforest' hgn
        (fun x hx => by rw [hst1, hd.length]; exact hlt x hx) (by rw [hst1, hd.length]; omega) ?_
      intro c t k rest hct htree hnodes i hi u hu hdu
      have hib := hlt i hi
      have hs := List.getElem?_eq_getElem hib
      have hu0 : st[i]? = some u := by rw [← hst2 i hi, hu]
      obtain ⟨k1, k2, k3, k4, k5⟩ := hdy i _ u hs hu0
      obtain ⟨p, hp⟩ := k1.1 hdu
      obtain ⟨c1, c2, c3⟩ := hfoundc i _ p hs hp
      refine ⟨by omega, by rw [k2]; exact c3, p, k5 p ((hMiff i _ hs p).1 hp).2, .one i p hp, ?_⟩
      -- the tree given here is determined by the nests
      have hgc : c :: t ∈ groups := by rw [← hct]; exact hg
      have htop : Inside p i (Forest.cons c (k ++ rest) .nil) := by
        have hTnd : (Forest.cons c (k ++ rest) .nil).nodes.Nodup := by
          have : (Forest.cons c k rest).nodes.Nodup := hnodes.nodup_iff.2 (hct ▸ hgn)
          simpa [nodes_cons, nodes_append] using this
        rw [hct] at hforest hheads hi
        generalize heads[j]'_ = hs' at hforest hheads
        cases hforest with
        | tops _ _ k' rest' hsh' hnodes' htree' =>
          have hins := contains_inside h hgc hsh' hnodes' hheads.symm c1
          obtain ⟨g', hg', ha1, hb1⟩ := contains_group h c1
          have hgg : g' = c :: t := by
            obtain ⟨i1, h1⟩ := List.getElem?_of_mem hg'
            obtain ⟨i2, h2⟩ := List.getElem?_of_mem hgc
            by_cases hij : i1 = i2
            · subst hij
              rw [h1] at h2
              exact Option.some.inj h2
            · exact absurd hi (h.disjoint h1 h2 hij hb1)
          subst hgg
          have hins := hins ha1
          have key : ∀ {x y : Nat}, Relation.TransGen (fun a b => IsChild a b (Forest.cons c (k' ++ rest') .nil)) x y →
              Inside x y (Forest.cons c (k ++ rest) .nil) := by
            have hch : ∀ x y, IsChild x y (Forest.cons c (k' ++ rest') .nil) → Inside x y (Forest.cons c (k ++ rest) .nil) := by
              intro x y hxy
              obtain ⟨l, ⟨w, w1, w2⟩, w3⟩ := isChild_kids htree' hxy
              have hxm : x ∈ c :: t := hnodes'.mem_iff.1 (by
                have := (isChild_mem hxy).1
                simpa [nodes_cons, nodes_append] using this)
              refine inside_of_child (kids_isChild (idxKids_unique _) (l := l) ⟨w, ?_, w2⟩ w3 htree ?_)
              · rw [hst2 x (hct ▸ hxm), w1]
              · have := hnodes.mem_iff.2 hxm
                simpa [nodes_cons, nodes_append] using this
            intro x y hxy
            induction hxy with
            | single h1 => exact hch _ _ h1
            | tail _ h1 ih => exact inside_trans hTnd ih (hch _ _ h1)
          exact key (inside_transGen hins)
      exact htop)
    (by
      rintro i _ st1 st2 hl hag ⟨h1, h2⟩
      exact ⟨by rw [hl, h1], fun x hx => by rw [hag x hx, h2 x hx]⟩)
    (by
      intro i _ a b a' b' ha hb hm
      exact mergedGroup_congr ha hb hm)
    (fun i _ => ⟨rfl, fun _ _ => rfl⟩)
  have hmidlen : mid.length = before.length := by rw [hl1, hd.length]
  -- membership in merged
  have hmm : ∀ p, p ∈ merged ↔ ∃ j, M j = some p := by
    intro p
    rw [hd.merged_ p]
    constructor
    · rintro ⟨i, s, hs, hb, ht⟩
      have hse := hset s (List.mem_of_getElem? hs)
      refine ⟨i, (hMiff i s hs p).2 ⟨?_, ht⟩⟩
      by_contra hc
      have := (hse.dead hc).1
      omega
    · rintro ⟨i, hi⟩
      cases hs : before[i]? with
      | none => rw [hMbeyond i hs] at hi; cases hi
      | some s =>
        exact ⟨i, s, hs, (hfoundc i s p hs hi).2.1, ((hMiff i s hs p).1 hi).2⟩
  obtain ⟨st3, e2, hl2, hq2⟩ := runAll_each (act := unbindMerged cfg env snap merged)
    (R := fun i a b => (i ∈ merged → Refined (∀ k j, (env i).energy k j < 0) cfg.minNum mass snap a b []) ∧ (i ∉ merged → b = a)) (each := each) (st := mid)
    (by rw [hmidlen]; exact he) (by
      intro i st' s hs
      by_cases hi : i ∈ merged
      · obtain ⟨v', e, hr⟩ := unbound_refined hok i snap s
        rw [hmass] at hr
        refine ⟨v', ?_, fun _ => hr, fun hn => absurd hi hn⟩
        rw [unbindMerged, if_pos hi, unbindAt, get_some hs, Outcome.bind_ok, e, Outcome.bind_ok,
          Outcome.set_of_lt (List.getElem?_eq_some_iff.1 hs).1]
      · refine ⟨s, ?_, fun hn => absurd hn hi, fun _ => rfl⟩
        rw [unbindMerged, if_neg hi]
        congr 1
        obtain ⟨hlt, rfl⟩ := List.getElem?_eq_some_iff.1 hs
        exact (List.set_getElem_self hlt).symm)
  obtain ⟨st4, e3, hl3, hq3⟩ := runAll_each (act := truncMerged cfg merged)
    (R := fun i a b => (i ∈ merged → b = truncateSource cfg a) ∧ (i ∉ merged → b = a)) (each := each) (st := st3)
    (by rw [hl2, hmidlen]; exact he) (by
      intro i st' s hs
      by_cases hi : i ∈ merged
      · refine ⟨truncateSource cfg s, ?_, fun _ => rfl, fun hn => absurd hi hn⟩
        rw [truncMerged, if_pos hi, get_some hs, Outcome.bind_ok, Outcome.set_of_lt (List.getElem?_eq_some_iff.1 hs).1]
      · refine ⟨s, ?_, fun hn => absurd hn hi, fun _ => rfl⟩
        rw [truncMerged, if_neg hi]
        congr 1
        obtain ⟨hlt, rfl⟩ := List.getElem?_eq_some_iff.1 hs
        exact (List.set_getElem_self hlt).symm)
  have hingroup : ∀ i, i ∈ groups.flatten → ∃ g ∈ groups, i ∈ g ∧ MergedGroup mass snap (SinkChain M) g st mid := by
    intro i hi
    obtain ⟨g, hg, hi⟩ := List.mem_flatten.1 hi
    obtain ⟨j, hj, rfl⟩ := List.getElem_of_mem hg
    have := hq1 j (ho.mem_iff.2 (List.mem_range.2 hj))
    rw [hall j hj] at this
    exact ⟨_, hg, hi, this⟩
  have hglt : ∀ g ∈ groups, ∀ x ∈ g, x < before.length := fun g hg x hx => lt_of_lt_of_le (h.lt hg hx) h.le
  refine ⟨st4, mid, ?_, by rw [hl3, hl2, hmidlen], ?_, ?_, ?_, e1⟩
  · rw [mergeTrapped, e1, Outcome.bind_ok, e2, Outcome.bind_ok, e3]
  · intro i s u hs hu
    have hib := (List.getElem?_eq_some_iff.1 hs).1
    obtain ⟨k1, k2, k3, k4, k5⟩ := hdy i s u hs hu
    have hv : mid[i]? = some (mid[i]'(by omega)) := List.getElem?_eq_getElem _
    obtain ⟨w, w1, w2, w3⟩ := hq2 i _ hv
    obtain ⟨v', v1, v2, v3⟩ := hq3 i w w1
    refine ⟨_, v', hv, v1, ?_, ?_, ?_, ?_⟩
    · rintro ⟨p, hp⟩
      obtain ⟨g0, hg0, _, hig⟩ := contains_group h (hfoundc i s p hs hp).1
      obtain ⟨g, hg, hig, hm⟩ := hingroup i (List.mem_flatten.2 ⟨g0, hg0, hig⟩)
      obtain ⟨x, rest, y1, y2⟩ := hm.away i hig u hu (k1.2 ⟨p, hp⟩)
      rw [hv] at y2
      exact ⟨x, rest, by rw [← k2, y1], Option.some.inj y2⟩
    · intro hnone
      have hnd : ¬ Dying u := fun hdu => by
        obtain ⟨p, hp⟩ := k1.1 hdu
        rw [hnone] at hp
        cases hp
      by_cases hig : i ∈ groups.flatten
      · obtain ⟨g, hg, hig, hm⟩ := hingroup i hig
        obtain ⟨extra, n, y1, y2, y3, y4, y5⟩ := hm.grown i hig u hu hnd
        rw [hv] at y1
        refine ⟨extra, n, Option.some.inj y1, by omega, y3, fun x hx => ?_, fun hno => ?_⟩
        · obtain ⟨z1, j, hj, t, z2, z3, z4, z5⟩ := y4 x hx
          refine ⟨by unfold sourceIds at z1 ⊢; rw [k2] at z1; exact z1, j, ?_⟩
          have hjs := List.getElem?_eq_getElem (hglt g hg j hj)
          refine ⟨_, hjs, z4, ?_⟩
          rw [← (hdy j _ t hjs z2).2.1]
          exact z5
        · rw [← k3]
          refine y5 (fun j hj t ht hdt => ?_)
          have hjs := List.getElem?_eq_getElem (hglt g hg j hj)
          obtain ⟨m1, _, _, _, m5⟩ := hdy j _ t hjs ht
          obtain ⟨p, hp⟩ := m1.1 hdt
          rw [m5 p ((hMiff j _ hjs p).1 hp).2]
          intro hpi
          have : p = i := by exact_mod_cast hpi
          exact hno j (this ▸ hp)
      · have hsame : mid[i]? = st[i]? := hf1 i (fun j hj hij => hig (by
          rw [hall j (hmemo j hj)] at hij
          exact List.mem_flatten.2 ⟨_, List.getElem_mem _, hij⟩))
        rw [hv, hu] at hsame
        refine ⟨[], s.nbound, ?_, le_refl _, by simp, fun x hx => (by cases hx), fun _ => ⟨rfl, rfl⟩⟩
        rw [Option.some.inj hsame, ← k3]
        unfold enlarged
        simp
    · intro hj
      have him := (hmm i).2 hj
      rw [v2 him]
      refine ⟨(refinedSub_of hmin hrelax (w2 him)).1, w.particles, by simpa using (w2 him).perm, ?_⟩
      have hle : w.nbound ≤ w.particles.length := by
        have h1 := (w2 him).le
        rw [(w2 him).perm.length_eq]
        split at h1
        · simpa using h1
        · exact h1
      obtain ⟨ps, t1, t2, _⟩ := C31_truncate cfg hrelax w hle
      rw [t1]
      exact t2
    · intro hno
      have him : i ∉ merged := fun hm => by
        obtain ⟨j, hj⟩ := (hmm i).1 hm
        exact hno j hj
      rw [v3 him, w3 him]
  · intro i s p hs hp x hx
    obtain ⟨_, u, _, hu⟩ := hstget i (List.getElem?_eq_some_iff.1 hs).1
    obtain ⟨k1, k2, k3, k4, k5⟩ := hdy i s u hs hu
    obtain ⟨g0, hg0, _, hig⟩ := contains_group h (hfoundc i s p hs hp).1
    obtain ⟨g, hg, hig, hm⟩ := hingroup i (List.mem_flatten.2 ⟨g0, hg0, hig⟩)
    obtain ⟨q, hq, t, t', y1, y2, y3, y4, y5⟩ := hm.conserved i hig u hu x (by unfold sourceIds at hx ⊢; rwa [k2])
    have hqs := List.getElem?_eq_getElem (hglt g hg q hq)
    have hqn : M q = none := by
      cases hMq : M q with
      | none => rfl
      | some p' => exact absurd (((hdy q _ t hqs y1).1).2 ⟨p', hMq⟩) y2
    rcases y4 with rfl | y4
    · rw [hp] at hqn; cases hqn
    · exact ⟨q, y4, hqn, t', y3, y5⟩
  · intro hneg i v' hj hv'
    have him := (hmm i).2 hj
    have hib : i < mid.length := by
      have := (List.getElem?_eq_some_iff.1 hv').1
      omega
    obtain ⟨w, w1, w2, w3⟩ := hq2 i _ (List.getElem?_eq_getElem hib)
    obtain ⟨v'', v1, v2, v3⟩ := hq3 i w w1
    rw [hv'] at v1
    cases v1
    rw [v2 him]
    exact truncate_whole hmin hrelax (w2 him) (hneg i) (Or.inr rfl)

/-- The subhaloes after the nests are restored, if trapped subhaloes merge. -/
theorem mergingCore_on [MassSum K] {cfg : UnbindConfig} (hmin : 2 ≤ cfg.minNum) (mass : D → K) (sunk : Nat → Nat → Bool)
    {snap : Int} {before st : List (Sub K D)} {nold : Nat} {groups heads : List (List Nat)} {field : List Nat}
    (h : Layout before nold groups heads field) (hset : ∀ s ∈ before, Settled cfg.minNum s) {merged : List Nat} {traps : Nat → Option Nat}
    (hd : Detected sunk snap groups heads before st merged traps) {order : List Nat} (ho : order.Perm (List.range groups.length))
    {done mid : List (Sub K D)} (hl4 : done.length = before.length) (hq4 : TrappedMerged cfg.minNum mass snap before st mid done traps) :
    ∃ out, runAll (unglueHost groups before) order done = .ok out ∧
      MergingCore true cfg.minNum mass snap (Contains before groups) sunk before out traps (mergesOf true before traps) (srcAt mid) := by
  have hMiff : ∀ (i : Nat) (s : Sub K D), before[i]? = some s → ∀ p, mergesOf true before traps i = some p ↔ true = true ∧ Alive s ∧ traps i = some p :=
    fun i s hs p => mergesOf_iff hs p
  have hbey : ∀ i, before[i]? = none → mergesOf true before traps i = none := by
    intro i hi
    simp only [mergesOf, hi]
  -- the sinks recorded
  have hrec : ∀ (i : Nat) (s u : Sub K D), before[i]? = some s → st[i]? = some u →
      ∃ l, u.nested = s.nested ++ l ∧ ((∀ g ∈ groups, g.head? ≠ some i) → l = []) ∧ SameTrack s (u.withNested s.nested) ∧
      u.nbound = s.nbound ∧ u.mbound = s.mbound ∧ u.particles = s.particles ∧ u.snapDeath = s.snapDeath ∧
      (∀ p, traps i = some p → u.sinkTrackId = (p : Int) ∧ u.snapSink = snap) ∧
      (traps i = none → u.sinkTrackId = s.sinkTrackId ∧ u.snapSink = s.snapSink) := by
    intro i s u hs hu
    obtain ⟨l, q1, q2⟩ := hd.each i s hs
    rw [hu] at q1
    refine ⟨l, ?_, q2, ?_⟩
    · rw [Option.some.inj q1, recordTrap_nested]; rfl
    · rw [Option.some.inj q1]
      cases traps i with
      | none => exact ⟨⟨rfl, rfl, rfl, rfl, rfl, rfl, rfl, rfl, rfl⟩, rfl, rfl, rfl, rfl, fun p hp => (by cases hp), fun _ => ⟨rfl, rfl⟩⟩
      | some p => exact ⟨⟨rfl, rfl, rfl, rfl, rfl, rfl, rfl, rfl, rfl⟩, rfl, rfl, rfl, rfl, fun p hp => (by cases hp; exact ⟨rfl, rfl⟩), fun hp => (by cases hp)⟩
  have hstget : ∀ (i : Nat) (s : Sub K D), before[i]? = some s → ∃ u, st[i]? = some u := fun i s hs =>
    ⟨_, List.getElem?_eq_getElem (by rw [hd.length]; exact (List.getElem?_eq_some_iff.1 hs).1)⟩
  have hdone : ∀ (i : Nat) (s u v v' : Sub K D), before[i]? = some s → st[i]? = some u → mid[i]? = some v → done[i]? = some v' →
      v'.nested = u.nested ∧ SameTrack u v' := by
    intro i s u v v' hs hu hv hv'
    obtain ⟨w, w', b1, b2, b3, b4, b5, b6⟩ := hq4 i s u hs hu
    rw [hv] at b1
    cases b1
    rw [hv'] at b2
    cases b2
    have hst : SameTrack u v := by
      cases hm : mergesOf true before traps i with
      | none =>
        obtain ⟨extra, n, rfl, _⟩ := b4 hm
        exact ⟨rfl, rfl, rfl, rfl, rfl, rfl, rfl, rfl, rfl⟩
      | some p =>
        obtain ⟨x, rest, _, rfl⟩ := b3 ⟨p, hm⟩
        exact ⟨rfl, rfl, rfl, rfl, rfl, rfl, rfl, rfl, rfl⟩
    by_cases hj : ∃ j, mergesOf true before traps j = some i
    · have := (b5 hj).1.same
      refine ⟨this.9.trans hst.9, this.1.trans hst.1, this.2.trans hst.2, this.3.trans hst.3, this.4.trans hst.4,
        this.5.trans hst.5, this.6.trans hst.6, this.7.trans hst.7, this.8.trans hst.8, this.9.trans hst.9⟩
    · have := b6 (fun j hj' => hj ⟨j, hj'⟩)
      subst this
      exact ⟨hst.9, hst⟩
  obtain ⟨out, e5, hl5, hq5⟩ := unglueAll_ok (st := done) h ho (by
    intro i s hs
    obtain ⟨u, hu⟩ := hstget i s hs
    obtain ⟨l, a1, a2, _⟩ := hrec i s u hs hu
    obtain ⟨v, v', b1, b2, _⟩ := hq4 i s u hs hu
    exact ⟨v', l, b2, by rw [(hdone i s u v v' hs hu b1 b2).1, a1], a2⟩)
  have hsinkAlive : ∀ (j i : Nat) (s : Sub K D), mergesOf true before traps j = some i → before[i]? = some s → Alive s := by
    intro j i s hj hs
    cases hb : before[j]? with
    | none => rw [hbey j hb] at hj; cases hj
    | some t =>
      obtain ⟨_, q1, q2⟩ := (hMiff j t hb i).1 hj
      have hf := hd.found j t hb ((hset t (List.mem_of_getElem? hb)).alive q1).2
      rw [q2] at hf
      obtain ⟨_, ⟨s', h1, h2⟩, _⟩ := hf
      rw [hs] at h1
      cases h1
      by_contra hc
      have := ((hset s (List.mem_of_getElem? hs)).dead hc).1
      unfold Resolved at h2
      omega
  have hnonempty : ∀ (i : Nat) (s : Sub K D) (p : Nat), before[i]? = some s → mergesOf true before traps i = some p → s.particles ≠ [] := by
    intro i s p hs hp hnil
    have hse := hset s (List.mem_of_getElem? hs)
    have h1 := (hse.alive ((hMiff i s hs p).1 hp).2.1).1
    have h2 := hse.le
    rw [hnil] at h2
    simp at h2
    omega
  have haway : ∀ (i : Nat) (s u v v' : Sub K D) (p : Nat), before[i]? = some s → st[i]? = some u → mid[i]? = some v → done[i]? = some v' →
      mergesOf true before traps i = some p → v'.nbound = 1 ∧ v'.particles = s.particles.take 1 ∧ v'.snapDeath = snap ∧ BoundMass mass v' := by
    intro i s u v v' p hs hu hv hv' hp
    obtain ⟨w, w', b1, b2, b3, b4, b5, b6⟩ := hq4 i s u hs hu
    rw [hv] at b1
    cases b1
    rw [hv'] at b2
    cases b2
    obtain ⟨x, rest, c1, rfl⟩ := b3 ⟨p, hp⟩
    by_cases hj : ∃ j, mergesOf true before traps j = some i
    · obtain ⟨hr, w, w1, w2⟩ := b5 hj
      have hwx : w = [x] := List.perm_singleton.1 w1
      subst hwx
      have hlen : v'.particles.length ≤ 1 := by simpa using w2.length_le
      have hle := hr.le
      have hnb : v'.nbound ≤ 1 := by omega
      have hfirst := hr.first hnb (by simp [mergedAway])
      have hpart : v'.particles = [x] := by
        obtain ⟨tl, htl⟩ := w2
        cases hvp : v'.particles with
        | nil => rw [hvp] at hfirst; simp [mergedAway] at hfirst
        | cons a l =>
          rw [hvp] at htl
          simp only [List.cons_append, List.cons.injEq] at htl
          rw [hvp] at hlen
          have : l = [] := by simpa using hlen
          rw [htl.1, this]
      have hn1 : v'.nbound = 1 := by
        rcases hr.two with h1 | h1
        · omega
        · rw [hpart] at h1
          simpa using h1.2.symm
      refine ⟨hn1, by rw [hpart, c1]; rfl, ?_, hr.mass_ (Or.inr (by simp [mergedAway]))⟩
      rw [hr.death, if_neg (by omega)]
      show (if snap = nullSnap then snap else snap) = snap
      rw [ite_self]
    · rw [b6 (fun j hj' => hj ⟨j, hj'⟩)]
      refine ⟨rfl, by rw [c1]; rfl, rfl, ?_⟩
      exact Or.inl (MassSum.count_single _).symm
  refine ⟨out, e5, ⟨by rw [hl5, hl4], hd.old, hd.found, hMiff, hbey, ?_, ?_, ?_, ?_⟩⟩
  · intro i s hs
    obtain ⟨u, hu⟩ := hstget i s hs
    obtain ⟨l, a1, a2, a3, a4, a5, a6, a7, a8, a9⟩ := hrec i s u hs hu
    obtain ⟨v, v', b1, b2, b3, b4, b5, b6⟩ := hq4 i s u hs hu
    have hsm := (hdone i s u v v' hs hu b1 b2).2
    refine ⟨_, hq5 i s v' hs b2, ⟨hsm.1.trans a3.1, hsm.2.trans a3.2, hsm.3.trans a3.3, hsm.4.trans a3.4, hsm.5.trans a3.5,
      hsm.6.trans a3.6, hsm.7.trans a3.7, hsm.8.trans a3.8, rfl⟩, ?_⟩
    have hvs : v.sinkTrackId = u.sinkTrackId ∧ v.snapSink = u.snapSink := by
      cases hm : mergesOf true before traps i with
      | none =>
        obtain ⟨extra, n, rfl, _⟩ := b4 hm
        exact ⟨rfl, rfl⟩
      | some p =>
        obtain ⟨x, rest, _, rfl⟩ := b3 ⟨p, hm⟩
        exact ⟨rfl, rfl⟩
    have hv's : v'.sinkTrackId = u.sinkTrackId ∧ v'.snapSink = u.snapSink := by
      by_cases hj : ∃ j, mergesOf true before traps j = some i
      · have hr := (b5 hj).1
        by_cases hn : cfg.minNum ≤ v'.nbound
        · -- alive again: it had no sink
          have hnull : u.sinkTrackId = nullTrack := by
            cases hm : mergesOf true before traps i with
            | some p =>
              exfalso
              obtain ⟨c1, _, _, _⟩ := haway i s u v v' p hs hu b1 b2 hm
              omega
            | none =>
              obtain ⟨j, hj⟩ := hj
              have hal := hsinkAlive j i s hj hs
              have htn : traps i = none := by
                cases ht : traps i with
                | none => rfl
                | some p =>
                  rw [(hMiff i s hs p).2 ⟨rfl, hal, ht⟩] at hm
                  cases hm
              rw [(a9 htn).1]
              exact ((hset s (List.mem_of_getElem? hs)).alive hal).2
          rw [hr.sink, hr.snapSink, if_pos hn, hnull, hvs.1, hvs.2, hnull]
          simp
        · rw [hr.sink, hr.snapSink, if_neg hn, if_neg (fun h => hn h.1)]
          exact hvs
      · rw [b6 (fun j hj' => hj ⟨j, hj'⟩)]
        exact hvs
    simp only [Sub.withNested_sinkTrackId, Sub.withNested_snapSink]
    rw [hv's.1, hv's.2]
    exact ⟨a8, a9⟩
  · intro i p s s' hs hs' hp
    obtain ⟨u, hu⟩ := hstget i s hs
    obtain ⟨v, v', b1, b2, _⟩ := hq4 i s u hs hu
    rw [hq5 i s v' hs b2] at hs'
    cases hs'
    obtain ⟨c1, c2, c3, c4⟩ := haway i s u v v' p hs hu b1 b2 hp
    refine ⟨c1, c2, ?_, c3, c4⟩
    simp only [Sub.withNested_particles]
    rw [c2, List.length_take]
    have := hnonempty i s p hs hp
    have : 0 < s.particles.length := List.length_pos_iff.2 this
    omega
  · intro i s s' hs hs' hm hno
    obtain ⟨u, hu⟩ := hstget i s hs
    obtain ⟨l, a1, a2, a3, a4, a5, a6, a7, a8, a9⟩ := hrec i s u hs hu
    obtain ⟨v, v', b1, b2, b3, b4, b5, b6⟩ := hq4 i s u hs hu
    rw [hq5 i s v' hs b2] at hs'
    cases hs'
    obtain ⟨extra, n, rfl, _, _, _, c5⟩ := b4 hm
    obtain ⟨rfl, rfl⟩ := c5 hno
    rw [b6 hno]
    exact ⟨rfl, a5, by simp [a6], a7⟩
  · intro i s s' j hs hs' hm hj
    obtain ⟨u, hu⟩ := hstget i s hs
    obtain ⟨l, a1, a2, a3, a4, a5, a6, a7, a8, a9⟩ := hrec i s u hs hu
    obtain ⟨v, v', b1, b2, b3, b4, b5, b6⟩ := hq4 i s u hs hu
    rw [hq5 i s v' hs b2] at hs'
    cases hs'
    obtain ⟨extra, n, rfl, c2, c3, c4, c5⟩ := b4 hm
    obtain ⟨hr, w, w1, w2⟩ := b5 ⟨j, hj⟩
    have hmidi : srcAt mid i = s.particles ++ extra := by
      unfold srcAt
      rw [b1]
      simp [a6]
    have hal := hsinkAlive j i s hj hs
    have htn : traps i = none := by
      cases ht : traps i with
      | none => rfl
      | some p =>
        rw [(hMiff i s hs p).2 ⟨rfl, hal, ht⟩] at hm
        cases hm
    have hnb := ((hset s (List.mem_of_getElem? hs)).alive hal).1
    rw [hmidi]
    simp only [enlarged_particles, a6] at w1
    refine ⟨⟨extra, rfl, c3, c4⟩, ⟨?_, hr.le, hr.two, ?_, ?_, ?_, ?_, ?_⟩, w, w1, w2⟩
    · have hsm := (hdone i s u _ v' hs hu b1 b2).2
      exact ⟨hsm.1.trans a3.1, hsm.2.trans a3.2, hsm.3.trans a3.3, hsm.4.trans a3.4, hsm.5.trans a3.5,
        hsm.6.trans a3.6, hsm.7.trans a3.7, hsm.8.trans a3.8, rfl⟩
    · have := hr.death
      simp only [enlarged_snapDeath, a7] at this
      exact this
    · have := hr.sink
      simp only [enlarged_sinkTrackId, (a9 htn).1] at this
      exact this
    · have := hr.snapSink
      simp only [enlarged_sinkTrackId, enlarged_snapSink, (a9 htn).1, (a9 htn).2] at this
      exact this
    · intro h1 h2
      have := hr.first h1
      simp only [enlarged_particles, a6] at this
      exact this h2
    · intro _
      exact hr.mass_ (Or.inl (by unfold Resolved; simp only [enlarged_nbound]; omega))

/-- The same if they do not. -/
theorem mergingCore_off [MassSum K] {cfg : UnbindConfig} (mass : D → K) (sunk : Nat → Nat → Bool)
    {snap : Int} {before st : List (Sub K D)} {nold : Nat} {groups heads : List (List Nat)} {field : List Nat}
    (h : Layout before nold groups heads field) {merged : List Nat} {traps : Nat → Option Nat}
    (hd : Detected sunk snap groups heads before st merged traps) {order : List Nat} (ho : order.Perm (List.range groups.length)) (middle : Nat → List (Particle D)) :
    ∃ out, runAll (unglueHost groups before) order st = .ok out ∧
      MergingCore false cfg.minNum mass snap (Contains before groups) sunk before out traps (mergesOf false before traps) middle := by
  have hMiff : ∀ (i : Nat) (s : Sub K D), before[i]? = some s → ∀ p, mergesOf false before traps i = some p ↔ false = true ∧ Alive s ∧ traps i = some p :=
    fun i s hs p => mergesOf_iff hs p
  have hbey : ∀ i, before[i]? = none → mergesOf false before traps i = none := by
    intro i hi
    simp only [mergesOf, hi]
  -- the sinks recorded
  have hrec : ∀ (i : Nat) (s u : Sub K D), before[i]? = some s → st[i]? = some u →
      ∃ l, u.nested = s.nested ++ l ∧ ((∀ g ∈ groups, g.head? ≠ some i) → l = []) ∧ SameTrack s (u.withNested s.nested) ∧
      u.nbound = s.nbound ∧ u.mbound = s.mbound ∧ u.particles = s.particles ∧ u.snapDeath = s.snapDeath ∧
      (∀ p, traps i = some p → u.sinkTrackId = (p : Int) ∧ u.snapSink = snap) ∧
      (traps i = none → u.sinkTrackId = s.sinkTrackId ∧ u.snapSink = s.snapSink) := by
    intro i s u hs hu
    obtain ⟨l, q1, q2⟩ := hd.each i s hs
    rw [hu] at q1
    refine ⟨l, ?_, q2, ?_⟩
    · rw [Option.some.inj q1, recordTrap_nested]; rfl
    · rw [Option.some.inj q1]
      cases traps i with
      | none => exact ⟨⟨rfl, rfl, rfl, rfl, rfl, rfl, rfl, rfl, rfl⟩, rfl, rfl, rfl, rfl, fun p hp => (by cases hp), fun _ => ⟨rfl, rfl⟩⟩
      | some p => exact ⟨⟨rfl, rfl, rfl, rfl, rfl, rfl, rfl, rfl, rfl⟩, rfl, rfl, rfl, rfl, fun p hp => (by cases hp; exact ⟨rfl, rfl⟩), fun hp => (by cases hp)⟩
  have hstget : ∀ (i : Nat) (s : Sub K D), before[i]? = some s → ∃ u, st[i]? = some u := fun i s hs =>
    ⟨_, List.getElem?_eq_getElem (by rw [hd.length]; exact (List.getElem?_eq_some_iff.1 hs).1)⟩
  obtain ⟨out, e4, hl4, hq4⟩ := unglueAll_ok (st := st) h ho (by
    intro i s hs
    obtain ⟨u, hu⟩ := hstget i s hs
    obtain ⟨l, a1, a2, _⟩ := hrec i s u hs hu
    exact ⟨u, l, hu, a1, a2⟩)
  refine ⟨out, e4, ⟨by rw [hl4, hd.length], hd.old, hd.found, hMiff, hbey, ?_, ?_, ?_, ?_⟩⟩
  · intro i s hs
    obtain ⟨u, hu⟩ := hstget i s hs
    obtain ⟨l, a1, a2, a3, a4, a5, a6, a7, a8, a9⟩ := hrec i s u hs hu
    exact ⟨_, hq4 i s u hs hu, a3, a8, a9⟩
  · intro i p s s' hs _ hp
    exact absurd ((hMiff i s hs p).1 hp).1 (by decide)
  · intro i s s' hs hs' _ _
    obtain ⟨u, hu⟩ := hstget i s hs
    obtain ⟨l, a1, a2, a3, a4, a5, a6, a7, a8, a9⟩ := hrec i s u hs hu
    rw [hq4 i s u hs hu] at hs'
    cases hs'
    exact ⟨a4, a5, a6, a7⟩
  · intro i s s' j hs _ _ hj
    cases hb : before[j]? with
    | none => rw [hbey j hb] at hj; cases hj
    | some t => exact absurd ((hMiff j t hb i).1 hj).1 (by decide)

/-- `MergeSubhalos` on one process. -/
theorem merge_snap [LinearOrder E] [Zero E] [MassSum K] {cfg : UnbindConfig} {env : Nat → UnbindEnv K D E}
    (hok : RefineOk cfg env) (hrelax : Keeps cfg.fl cfg.relax) (mass : D → K) (hmass : ∀ i, (env i).mass = mass) (on : Bool) (sunk : Nat → Nat → Bool)
    {snap : Int} (hsnap : snap ≠ nullSnap) {before : List (Sub K D)} {nold : Nat} {groups heads : List (List Nat)} {field : List Nat}
    (h : Layout before nold groups heads field) (hset : ∀ s ∈ before, Settled cfg.minNum s)
    {fuel : Nat} (hfuel : before.length < fuel) {order each : List Nat}
    (ho : order.Perm (List.range groups.length)) (he : each.Perm (List.range before.length)) :
    ∃ out traps merges middle, mergeSubhalos cfg env mass on sunk snap fuel order each groups heads before = .ok out ∧
      Merging on cfg.minNum mass snap (Contains before groups) sunk before out traps merges middle := by
  obtain ⟨glued, hosts, st, merged, traps, e1, e2, e3, hd⟩ := detect_ok sunk snap h hfuel ho he
  cases on with
  | false =>
    obtain ⟨out, e4, hm⟩ := mergingCore_off (cfg := cfg) mass sunk h hd ho (fun _ => [])
    refine ⟨out, traps, mergesOf false before traps, fun _ => [], ?_, hm, ?_⟩
    · rw [mergeSubhalos, e1, Outcome.bind_ok, e2, Outcome.bind_ok, e3, Outcome.bind_ok]
      simp only [Bool.false_eq_true, if_false]
      rw [Outcome.bind_ok, e4]
    · intro i s p hs hp
      exact absurd ((mergesOf_iff hs p).1 hp).1 (by decide)
  | true =>
    obtain ⟨done, mid, e4, hl4, hq4, hc4, _⟩ := mergeTrapped_ok hok hrelax mass hmass sunk hsnap h hset hd hfuel ho he
    obtain ⟨out, e5, hm⟩ := mergingCore_on hok.min mass sunk h hset hd ho hl4 hq4
    refine ⟨out, traps, mergesOf true before traps, srcAt mid, ?_, hm, ?_⟩
    · rw [mergeSubhalos, e1, Outcome.bind_ok, e2, Outcome.bind_ok, e3, Outcome.bind_ok]
      simp only [if_true]
      rw [e4, Outcome.bind_ok, e5]
    · intro i s p hs hp x hx
      obtain ⟨q, c1, c2, v, c3, c4⟩ := hc4 i s p hs hp x hx
      refine ⟨q, c1, c2, ?_⟩
      unfold srcAt
      rw [c3]
      exact c4

end HBT
