import Verif.Lemmas.Refine
import Verif.Lemmas.Layout
import Verif.Spec.Refine
import Verif.Props.Mask
import Verif.Props.Unbind
/-!
# C30: unbinding a host
-/
namespace HBT.Props
open HBT HBT.Model HBT.Spec HBT.Spec.Forest
variable {K D E : Type}

theorem mem_lone {nold n : Nat} {field lone : List Nat}
    (hl : lone.Perm (field ++ (List.range (n - nold)).map (nold + ·))) (x : Nat) :
    x ∈ lone ↔ x ∈ field ∨ (nold ≤ x ∧ nold + (x - nold) < nold + (n - nold)) := by
  rw [hl.mem_iff, List.mem_append, List.mem_map]
  constructor
  · rintro (h | ⟨a, h, rfl⟩)
    · exact Or.inl h
    · rw [List.mem_range] at h
      exact Or.inr ⟨by omega, by omega⟩
  · rintro (h | ⟨h1, h2⟩)
    · exact Or.inl h
    · exact Or.inr ⟨x - nold, List.mem_range.2 (by omega), by omega⟩

/-- `RefineParticles` on one process, before the truncation. -/
theorem refine_layout [LinearOrder E] [Zero E] [MassSum K] {cfg : UnbindConfig} {env : Nat → UnbindEnv K D E}
    (hok : RefineOk cfg env) (snap : Int) {subs : List (Sub K D)} {nold : Nat} {groups heads : List (List Nat)} {field : List Nat}
    (h : Layout subs nold groups heads field) {fuel : Nat} (hfuel : subs.length ≤ fuel) {order lone : List Nat}
    (ho : order.Perm (List.range groups.length))
    (hlone : lone.Perm (field ++ (List.range (subs.length - nold)).map (nold + ·))) :
    ∃ mid, refineParticles cfg env snap fuel order lone groups heads subs = .ok (mid.map (truncateSource cfg)) ∧
      mid.length = subs.length ∧
      (∀ x < subs.length, ∃ u u' e, subs[x]? = some u ∧ mid[x]? = some u' ∧ Refined (∀ k j, (env x).energy k j < 0) cfg.minNum (env x).mass snap u u' e) ∧
      ∀ g ∈ groups, ∃ left, (left ++ g.flatMap (boundAt mid)).Perm (g.flatMap (srcAt subs)) := by
  have hlen : groups.length = heads.length := h.forests.length_eq
  have hmemo : ∀ i ∈ order, i < groups.length := fun i hi => List.mem_range.1 (ho.mem_iff.1 hi)
  have hall : ∀ i (hi : i < groups.length), (groups.getD i []) = groups[i] := fun i hi => by
    simp [List.getD, hi]
  -- hosts
  obtain ⟨out, e, hl, hf, hq⟩ := runAll_local (act := refineHost cfg env snap fuel groups heads) (fun i => groups.getD i [])
    (Pre := fun i st => st.length = subs.length ∧ Agree (groups.getD i []) subs st)
    (Q := fun i a b => (∀ x ∈ groups.getD i [], ∃ u u' e, a[x]? = some u ∧ b[x]? = some u' ∧
        Refined (∀ k j, (env x).energy k j < 0) cfg.minNum (env x).mass snap u u' e) ∧
      ∃ left, (left ++ (groups.getD i []).flatMap (boundAt b)).Perm ((groups.getD i []).flatMap (srcAt a)))
    order subs (ho.nodup_iff.2 List.nodup_range)
    (by
      intro i hi j hj hij x hx
      have hi' := hmemo i hi
      have hj' := hmemo j hj
      rw [hall i hi'] at hx
      rw [hall j hj']
      exact h.disjoint (List.getElem?_eq_getElem hi') (List.getElem?_eq_getElem hj') hij hx)
    (by
      rintro i hi st ⟨hst1, hst2⟩
      have hi' := hmemo i hi
      rw [hall i hi'] at hst2 ⊢
      have hgm : groups[i] ∈ groups := List.getElem_mem hi'
      have hlt : ∀ x ∈ groups[i], x < subs.length := fun x hx => lt_of_lt_of_le (h.lt hgm hx) h.le
      have hforest := (List.forall₂_iff_get.1 h.forests).2 i hi' (by omega)
      simp only [List.get_eq_getElem] at hforest
      obtain ⟨o, o1, o2, o3, o4, o5⟩ := refineHost_ok hok snap (List.getElem?_eq_getElem hi') (List.getElem?_eq_getElem (hlen ▸ hi'))
        (hforest.congr (subs' := st) (fun x hx s hs => ⟨s, by rw [hst2 x hx, hs], rfl⟩))
        (by
          have := h.nodup
          rw [List.nodup_flatten] at this
          exact this.1 _ hgm) (by omega : st.length ≤ fuel) (fun x hx => by rw [hst1]; exact hlt x hx)
      refine ⟨o, o1, o2, o3, o4, ?_⟩
      cases hg : groups[i] with
      | nil => exact ⟨[], List.Perm.refl _⟩
      | cons c t =>
        obtain ⟨u', _, hp⟩ := o5 c (by rw [hg]; rfl)
        rw [hg] at hp
        exact ⟨_, hp⟩)
    (by
      rintro i _ st st' hl hag ⟨h1, h2⟩
      exact ⟨by rw [hl, h1], fun x hx => by rw [hag x hx, h2 x hx]⟩)
    (by
      rintro i _ a b a' b' ha hb ⟨h1, left, h2⟩
      refine ⟨fun x hx => ?_, left, ?_⟩
      · obtain ⟨u, u', e, a1, a2, a3⟩ := h1 x hx
        exact ⟨u, u', e, by rw [ha x hx, a1], by rw [hb x hx, a2], a3⟩
      · rw [flatMap_congr' (fun x hx => boundAt_congr (hb x hx)), flatMap_congr' (fun x hx => srcAt_congr (ha x hx))]
        exact h2)
    (fun i _ => ⟨rfl, fun _ _ => rfl⟩)
  -- the others
  have hnodup : (groups.flatten ++ field).Nodup := h.all.nodup_iff.2 List.nodup_range
  have hfield : ∀ x ∈ field, x < nold := fun x hx =>
    List.mem_range.1 (h.all.mem_iff.1 (List.mem_append_right _ hx))
  have hln : lone.Nodup := by
    rw [hlone.nodup_iff, List.nodup_append]
    refine ⟨(List.nodup_append.1 hnodup).2.1, List.Nodup.map (fun a b hab => by simpa using hab) List.nodup_range, ?_⟩
    rintro a ha b hb rfl
    obtain ⟨c, _, rfl⟩ := List.mem_map.1 hb
    have := hfield _ ha
    omega
  have hlt : ∀ x ∈ lone, x < subs.length := by
    intro x hx
    have hle := h.le
    rcases (mem_lone hlone x).1 hx with h1 | ⟨h1, h2⟩
    · have := hfield x h1; omega
    · omega
  obtain ⟨mid, e', hl', hf', hq'⟩ := runAll_local (act := unbindAt cfg env snap) (fun i => [i])
    (Pre := fun i st => st.length = subs.length)
    (Q := fun x a b => ∃ u u' e, a[x]? = some u ∧ b[x]? = some u' ∧ Refined (∀ k j, (env x).energy k j < 0) cfg.minNum (env x).mass snap u u' e)
    lone out hln
    (by
      intro i _ j _ hij x hx
      simp only [List.mem_singleton] at hx ⊢
      omega)
    (by
      intro i hi st hst
      have hi' : i < st.length := by rw [hst]; exact hlt i hi
      obtain ⟨v', e2, hr⟩ := unbound_refined hok i snap st[i]
      refine ⟨st.set i v', ?_, List.length_set, ?_, st[i], v', [], List.getElem?_eq_getElem hi', List.getElem?_set_self hi', hr⟩
      · rw [unbindAt, get_some (List.getElem?_eq_getElem hi'), Outcome.bind_ok, e2, Outcome.bind_ok, Outcome.set_of_lt hi']
      · intro x hx
        exact List.getElem?_set_ne (by simpa using Ne.symm (show x ≠ i by simpa using hx)))
    (by
      intro i _ st st' hl _ h1
      rw [hl, h1])
    (by
      rintro i _ a b a' b' ha hb ⟨u, u', e, a1, a2, a3⟩
      exact ⟨u, u', e, by rw [ha i (by simp), a1], by rw [hb i (by simp), a2], a3⟩)
    (fun i _ => hl)
  have hgl : ∀ g ∈ groups, ∀ x ∈ g, x ∉ lone := by
    intro g hg x hx hxl
    rcases (mem_lone hlone x).1 hxl with h1 | ⟨h1, h2⟩
    · exact (List.nodup_append.1 hnodup).2.2 x (List.mem_flatten.2 ⟨g, hg, hx⟩) x h1 rfl
    · have := h.lt hg hx; omega
  have hfr : ∀ x, x ∉ lone → mid[x]? = out[x]? := fun x hx =>
    hf' x (fun i hi hxi => hx (by simp only [List.mem_singleton] at hxi; rwa [hxi]))
  have hfr2 : ∀ x, x ∉ groups.flatten → out[x]? = subs[x]? := fun x hx =>
    hf x (fun i hi hxi => hx (by
      rw [hall i (hmemo i hi)] at hxi
      exact List.mem_flatten.2 ⟨_, List.getElem_mem (hmemo i hi), hxi⟩))
  refine ⟨mid, ?_, by rw [hl', hl], ?_, ?_⟩
  · rw [refineParticles, e, Outcome.bind_ok, e', Outcome.bind_ok]
  · intro x hx
    by_cases hxl : x ∈ lone
    · obtain ⟨u, u', e, a1, a2, a3⟩ := hq' x hxl
      refine ⟨u, u', e, ?_, a2, a3⟩
      rw [← hfr2 x (fun hg => ?_)]
      · exact a1
      · obtain ⟨g, hg, hxg⟩ := List.mem_flatten.1 hg
        exact hgl g hg x hxg hxl
    · have hxg : x ∈ groups.flatten := by
        have h3 := h.all.mem_iff (a := x)
        rw [List.mem_append, List.mem_range] at h3
        have h4 := mem_lone hlone x
        by_contra hc
        by_cases hxn : x < nold
        · exact hxl (h4.2 (Or.inl ((h3.2 hxn).resolve_left hc)))
        · exact hxl (h4.2 (Or.inr ⟨by omega, by omega⟩))
      obtain ⟨g, hg, hxg⟩ := List.mem_flatten.1 hxg
      obtain ⟨i, hi, rfl⟩ := List.getElem_of_mem hg
      have := (hq i (ho.mem_iff.2 (List.mem_range.2 hi))).1
      rw [hall i hi] at this
      obtain ⟨u, u', e, a1, a2, a3⟩ := this x hxg
      exact ⟨u, u', e, a1, by rw [hfr x hxl, a2], a3⟩
  · intro g hg
    obtain ⟨i, hi, rfl⟩ := List.getElem_of_mem hg
    obtain ⟨left, hp⟩ := (hq i (ho.mem_iff.2 (List.mem_range.2 hi))).2
    rw [hall i hi] at hp
    refine ⟨left, ?_⟩
    rw [flatMap_congr' (fun x hx => boundAt_congr (hfr x (hgl _ hg x hx)))]
    exact hp

/-- If all energies are negative, all particles are bound after the truncation. -/
theorem truncate_whole [MassSum K] {neg : Prop} {cfg : UnbindConfig} (hmin : 2 ≤ cfg.minNum) (hrelax : Keeps cfg.fl cfg.relax) {mass : D → K} {snap : Int}
    {u u' : Sub K D} {e : List (Particle D)} (h : Refined neg cfg.minNum mass snap u u' e) (hneg : neg)
    (he : (u.nbound ≤ 1 → u.particles.length ≤ 1) ∨ e = []) :
    (truncateSource cfg u').nbound = (truncateSource cfg u').particles.length := by
  have hlen := h.perm.length_eq
  rw [List.length_append] at hlen
  have hle : u'.nbound ≤ u'.particles.length := by
    have := h.le
    split at this
    · omega
    · rw [List.length_append] at this
      omega
  obtain ⟨ps, e1, hpre, hge, _, hone, _⟩ := C31_truncate cfg hrelax u' hle
  have hps := hpre.length_le
  rw [e1]
  show u'.nbound = ps.length
  have hw := h.whole hneg
  by_cases h1 : u'.nbound ≤ 1
  · exact (hone h1).symm
  · have h2 := hw.resolve_left h1
    split at h2
    · rename_i hu
      rcases he with he | he
      · have := he hu
        omega
      · rw [he, List.length_nil] at hlen
        omega
    · rw [List.length_append] at h2
      omega

/-- One subhalo, truncation included. -/
theorem refinedSub_of [MassSum K] {neg : Prop} {cfg : UnbindConfig} (hmin : 2 ≤ cfg.minNum) (hrelax : Keeps cfg.fl cfg.relax) {mass : D → K} {snap : Int}
    {u u' : Sub K D} {e : List (Particle D)} (h : Refined neg cfg.minNum mass snap u u' e) :
    RefinedSub cfg.minNum mass snap u (truncateSource cfg u') ∧
      boundIds (truncateSource cfg u') = (u'.particles.take u'.nbound).map Particle.id ∧
      (truncateSource cfg u').nbound = u'.nbound := by
  have hlen := h.perm.length_eq
  have hle : u'.nbound ≤ u'.particles.length := by
    have := h.le
    rw [hlen, List.length_append]
    split at this
    · omega
    · simpa using this
  obtain ⟨ps, e1, hpre, hge, _, hone, _⟩ := C31_truncate cfg hrelax u' hle
  obtain ⟨q, hq⟩ := hpre
  have htake : ps.take u'.nbound = u'.particles.take u'.nbound := by
    rw [← hq, List.take_append_of_le_length hge]
  rw [e1]
  refine ⟨⟨⟨h.same.1, h.same.2, h.same.3, h.same.4, h.same.5, h.same.6, h.same.7, h.same.8, h.same.9⟩, hge, ?_, ?_, ?_, ?_, ?_, ?_⟩, ?_, rfl⟩
  · rcases h.outcome with h1 | h1
    · exact Or.inl h1.1
    · have h2 : u'.nbound ≤ 1 := by have := h1.1; omega
      exact Or.inr ⟨h2, hone h2⟩
  · show u'.snapDeath = _
    simp only [Sub.withParticles_nbound]
    rcases h.outcome with h1 | h1
    · rw [if_pos h1.1, h1.2.1]
    · rw [if_neg (by have := h1.1; omega), h1.2.1]
  · show u'.sinkTrackId = _
    simp only [Sub.withParticles_nbound]
    rcases h.outcome with h1 | h1
    · rw [if_pos h1.1, h1.2.2.1]
    · rw [if_neg (by have := h1.1; omega), h1.2.2.1]
  · show u'.snapSink = _
    simp only [Sub.withParticles_nbound]
    rcases h.outcome with h1 | h1
    · rw [h1.2.2.2]
      simp only [h1.1, true_and]
    · rw [if_neg (by have := h1.1; omega), h1.2.2.2.1]
  · intro h2 hne
    simp only [Sub.withParticles_nbound] at h2
    simp only [Sub.withParticles_particles]
    rcases h.outcome with h1 | h1
    · exact absurd h1.1 (by omega)
    · rw [← h1.2.2.2.2 hne]
      have hpos : 0 < u'.nbound := by
        rw [h1.1]
        have : 0 < u.particles.length := List.length_pos_iff.2 hne
        split <;> (try rw [List.length_append]) <;> omega
      rw [← hq]
      cases ps with
      | nil => simp at hge; omega
      | cons a l => rfl
  · intro hm
    have := h.mass_ hm
    unfold BoundMass at this ⊢
    simp only [Sub.withParticles_particles, Sub.withParticles_nbound, Sub.withParticles_mbound]
    rw [htake]
    exact this
  · unfold boundIds
    simp only [Sub.withParticles_particles, Sub.withParticles_nbound]
    rw [htake]

theorem gather_map (f : Sub K D → List (Particle D)) (subs : List (Sub K D)) (g : List Nat) :
    gather (fun s => (f s).map Particle.id) subs g =
      (g.flatMap (fun i => match subs[i]? with | some s => f s | none => [])).map Particle.id := by
  unfold gather
  rw [List.map_flatMap]
  refine flatMap_congr' (fun i _ => ?_)
  cases subs[i]? <;> rfl

theorem nodup_gather {f : Sub K D → List Int} {subs : List (Sub K D)} {g : List Nat} (h : (gather f subs g).Nodup) :
    (∀ i ∈ g, ∀ s, subs[i]? = some s → (f s).Nodup) ∧
    (g.Nodup → ∀ i ∈ g, ∀ j ∈ g, i ≠ j → ∀ s t, subs[i]? = some s → subs[j]? = some t → ∀ x ∈ f s, x ∉ f t) := by
  unfold gather at h
  rw [List.nodup_flatMap] at h
  constructor
  · intro i hi s hs
    have := h.1 i hi
    rwa [hs] at this
  · intro hn i hi j hj hij s t hs ht x hx hx'
    have hp := h.2
    have hd := List.pairwise_iff_getElem.1 hp
    obtain ⟨a, ha, rfl⟩ := List.getElem_of_mem hi
    obtain ⟨b, hb, rfl⟩ := List.getElem_of_mem hj
    rcases Nat.lt_trichotomy a b with hab | rfl | hab
    · have := hd a b ha hb hab
      simp only [Function.onFun, hs, ht] at this
      exact this hx hx'
    · exact hij rfl
    · have := hd b a hb ha hab
      simp only [Function.onFun, hs, ht] at this
      exact this hx' hx

/-- Each subhalo alone. -/
structure RefinedEach [MassSum K] (cfg : UnbindConfig) (mass : Nat → D → K) (snap : Int) (before after : List (Sub K D)) : Prop where
  length : after.length = before.length
  each : ∀ (i : Nat) (s : Sub K D), before[i]? = some s → ∃ s', after[i]? = some s' ∧ RefinedSub cfg.minNum (mass i) snap s s'

/-- The state before and after `RefineParticles` on one process. -/
structure RefinedSnap [MassSum K] (cfg : UnbindConfig) (mass : Nat → D → K) (snap : Int) (groups : List (List Nat))
    (before after : List (Sub K D)) : Prop extends RefinedEach cfg mass snap before after where
  conserved : ∀ g ∈ groups, ∃ left, (left ++ gather boundIds after g).Perm (gather sourceIds before g)
  exclusive : OrphansSingle before → ∀ g ∈ groups, ∀ contains b, MaskedHost contains g b before → g.Nodup → ExclusiveBound g after

theorem refine_snap [LinearOrder E] [Zero E] [MassSum K] {cfg : UnbindConfig} {env : Nat → UnbindEnv K D E}
    (hok : RefineOk cfg env) (hrelax : Keeps cfg.fl cfg.relax) (snap : Int) {subs : List (Sub K D)} {nold : Nat} {groups heads : List (List Nat)} {field : List Nat}
    (h : Layout subs nold groups heads field) {fuel : Nat} (hfuel : subs.length ≤ fuel) {order lone : List Nat}
    (ho : order.Perm (List.range groups.length))
    (hlone : lone.Perm (field ++ (List.range (subs.length - nold)).map (nold + ·))) :
    ∃ out, refineParticles cfg env snap fuel order lone groups heads subs = .ok out ∧
      RefinedSnap cfg (fun i => (env i).mass) snap groups subs out := by
  obtain ⟨mid, e, hl, hq, hp⟩ := refine_layout hok snap h hfuel ho hlone
  have hmin := hok.min
  have hcons : ∀ g ∈ groups, ∃ left, (left ++ gather boundIds (mid.map (truncateSource cfg)) g).Perm (gather sourceIds subs g) := by
    intro g hg
    obtain ⟨left, hp⟩ := hp g hg
    refine ⟨left.map Particle.id, ?_⟩
    have h1 := hp.map Particle.id
    rw [List.map_append] at h1
    have h2 : gather sourceIds subs g = (g.flatMap (srcAt subs)).map Particle.id := gather_map Sub.particles subs g
    have h3 : gather boundIds (mid.map (truncateSource cfg)) g = (g.flatMap (boundAt mid)).map Particle.id := by
      unfold gather
      rw [List.map_flatMap]
      refine flatMap_congr' (fun x hx => ?_)
      have hx' : x < subs.length := lt_of_lt_of_le (h.lt hg hx) h.le
      obtain ⟨u, u', e, a1, a2, a3⟩ := hq x hx'
      unfold boundAt
      rw [List.getElem?_map, a2]
      exact (refinedSub_of hmin hrelax a3).2.1
    rw [h2, h3]
    exact h1
  refine ⟨_, e, ⟨by rw [List.length_map, hl], ?_⟩, hcons, ?_⟩
  · intro i s hs
    obtain ⟨u, u', e, a1, a2, a3⟩ := hq i (List.getElem?_eq_some_iff.1 hs).1
    rw [hs] at a1
    cases a1
    exact ⟨_, by rw [List.getElem?_map, a2]; rfl, (refinedSub_of hmin hrelax a3).1⟩
  · intro hsingle g hg contains b hm hgn
    -- members that were resolved, and the others
    set R := g.filter (fun i => match subs[i]? with | some s => decide (1 < s.nbound) | none => false) with hR
    set O := g.filter (fun i => !(match subs[i]? with | some s => decide (1 < s.nbound) | none => false)) with hO
    have hRO : (R ++ O).Perm g := List.filter_append_perm _ g
    have hRmem : ∀ i, i ∈ R ↔ i ∈ g ∧ ∃ s, subs[i]? = some s ∧ 1 < s.nbound := by
      intro i
      rw [hR, List.mem_filter]
      refine and_congr_right (fun _ => ?_)
      cases hs : subs[i]? with
      | none => simp
      | some s => simp
    have hOmem : ∀ i, i ∈ O → i ∈ g ∧ ∃ s, subs[i]? = some s ∧ s.nbound ≤ 1 := by
      intro i hi
      rw [hO, List.mem_filter] at hi
      refine ⟨hi.1, ?_⟩
      have hlt : i < subs.length := lt_of_lt_of_le (h.lt hg hi.1) h.le
      have h2 := hi.2
      rw [List.getElem?_eq_getElem hlt] at h2 ⊢
      refine ⟨_, rfl, ?_⟩
      simpa using h2
    -- an orphan keeps its particle
    have hOeq : ∀ i ∈ O, boundAt mid i = srcAt subs i ∧ ∀ u', mid[i]? = some u' → u'.nbound ≤ 1 := by
      intro i hi
      obtain ⟨hig, s, hs, hsn⟩ := hOmem i hi
      obtain ⟨u, u', e, a1, a2, a3⟩ := hq i (List.getElem?_eq_some_iff.1 hs).1
      rw [hs] at a1
      cases a1
      have hs1 := hsingle s (List.mem_of_getElem? hs) (by unfold Resolved; omega)
      have hle := a3.le
      rw [if_pos hsn] at hle
      have hb : u'.nbound = min 1 s.particles.length := by
        rcases a3.outcome with h1 | h1
        · exact absurd h1.1 (by omega)
        · have := h1.1
          rwa [if_pos hsn] at this
      obtain ⟨v, hv, hve⟩ := a3.orphan hsn
      have hvs : v = s.particles := by
        match hsp : s.particles with
        | [] => rw [hsp] at hv; exact hv.eq_nil
        | [a] => rw [hsp] at hv; exact List.perm_singleton.1 hv
        | a :: b :: l => rw [hsp] at hs1; simp at hs1
      constructor
      · unfold boundAt srcAt
        rw [a2, hs]
        simp only
        rw [hve, hvs, List.take_append_of_le_length (by omega), List.take_of_length_le (by omega)]
      · intro w hw
        rw [a2] at hw
        cases hw
        omega
    obtain ⟨left, hperm⟩ := hp g hg
    have hperm2 : (left ++ R.flatMap (boundAt mid)).Perm (R.flatMap (srcAt subs)) := by
      have h1 : (left ++ (R.flatMap (boundAt mid) ++ O.flatMap (srcAt subs))).Perm (R.flatMap (srcAt subs) ++ O.flatMap (srcAt subs)) := by
        have e1 : (R.flatMap (boundAt mid) ++ O.flatMap (srcAt subs)).Perm (g.flatMap (boundAt mid)) := by
          have e2 : O.flatMap (srcAt subs) = O.flatMap (boundAt mid) := flatMap_congr' (fun i hi => ((hOeq i hi).1).symm)
          rw [e2, ← List.flatMap_append]
          exact hRO.flatMap_right _
        refine ((List.Perm.refl left).append e1).trans (hperm.trans ?_)
        rw [← List.flatMap_append]
        exact (hRO.flatMap_right _).symm
      rw [← List.append_assoc] at h1
      exact (List.perm_append_right_iff _).1 h1
    have hsrc : (gather sourceIds subs R).Nodup := by
      unfold gather
      rw [List.nodup_flatMap]
      have hRn : R.Nodup := hgn.filter _
      refine ⟨fun i hi => ?_, ?_⟩
      · obtain ⟨hig, s, hs, hsn⟩ := (hRmem i).1 hi
        rw [hs]
        exact hm.once i hig s hs hsn
      · refine hRn.pairwise_of_forall_ne (fun i hi j hj hij => ?_)
        obtain ⟨hig, s, hs, hsn⟩ := (hRmem i).1 hi
        obtain ⟨hjg, t, ht, htn⟩ := (hRmem j).1 hj
        simp only [Function.onFun, hs, ht]
        intro x hx hx'
        exact hm.exclusive i hig j hjg hij s t hs ht hsn htn x hx hx'
    have hbn : (gather boundIds (mid.map (truncateSource cfg)) R).Nodup := by
      have h3 : gather boundIds (mid.map (truncateSource cfg)) R = (R.flatMap (boundAt mid)).map Particle.id := by
        unfold gather
        rw [List.map_flatMap]
        refine flatMap_congr' (fun x hx => ?_)
        obtain ⟨hxg, s, hs, _⟩ := (hRmem x).1 hx
        obtain ⟨u, u', e, a1, a2, a3⟩ := hq x (List.getElem?_eq_some_iff.1 hs).1
        unfold boundAt
        rw [List.getElem?_map, a2]
        exact (refinedSub_of hmin hrelax a3).2.1
      have h2 : gather sourceIds subs R = (R.flatMap (srcAt subs)).map Particle.id := gather_map Sub.particles subs R
      rw [h2] at hsrc
      have h4 := (hperm2.map Particle.id).nodup_iff.2 hsrc
      rw [List.map_append, List.nodup_append] at h4
      rw [h3]
      exact h4.2.1
    -- who is resolved afterwards was resolved before
    have hres : ∀ i ∈ g, ∀ s', (mid.map (truncateSource cfg))[i]? = some s' → Resolved s' → i ∈ R := by
      intro i hi s' hs' hr
      by_contra hc
      have hiO : i ∈ O := by
        have := hRO.mem_iff.2 hi
        rw [List.mem_append] at this
        exact this.resolve_left hc
      rw [List.getElem?_map] at hs'
      cases hmi : mid[i]? with
      | none => rw [hmi] at hs'; cases hs'
      | some u' =>
        rw [hmi] at hs'
        simp only [Option.map_some, Option.some.injEq] at hs'
        have h5 := (hOeq i hiO).2 u' hmi
        obtain ⟨u, w, e, a1, a2, a3⟩ := hq i (by have := (List.getElem?_eq_some_iff.1 hmi).1; omega)
        rw [hmi] at a2
        cases a2
        have h6 := (refinedSub_of hmin hrelax a3).2.2
        rw [hs'] at h6
        unfold Resolved at hr
        omega
    obtain ⟨hA, hB⟩ := nodup_gather hbn
    constructor
    · intro i hi s hs hr
      exact hA i (hres i hi s hs hr) s hs
    · intro i hi j hj hij s t hs ht hrs hrt x hx
      exact hB (hgn.filter _) i (hres i hi s hs hrs) j (hres j hj t ht hrt) hij s t hs ht x hx

/-- Masking changes particles only. -/
theorem masked_particles {subs out : List (Sub K D)} {nold : Nat} {groups heads : List (List Nat)} {field : List Nat}
    (h : Layout subs nold groups heads field) {fuel : Nat} (hfuel : subs.length ≤ fuel) {order : List Nat}
    (ho : order.Perm (List.range groups.length)) (e : maskSubhalos fuel order groups heads subs = .ok out) :
    Layout out nold groups heads field ∧
    List.Forall₂ (fun s s' : Sub K D => ∃ ps, s' = s.withParticles ps ∧ ps.Sublist s.particles ∧ (¬ Resolved s → ps = s.particles)) subs out ∧
    ∀ g ∈ groups, MaskedHost (Contains subs groups) g subs out := by
  obtain ⟨o, e', hl, hf, hm⟩ := mask_layout h hfuel ho
  rw [e] at e'
  cases e'
  have hF : List.Forall₂ (fun s s' : Sub K D => ∃ ps, s' = s.withParticles ps ∧ ps.Sublist s.particles ∧ (¬ Resolved s → ps = s.particles)) subs out := by
    rw [List.forall₂_iff_get]
    refine ⟨hl.symm, fun i h1 h2 => ?_⟩
    simp only [List.get_eq_getElem]
    by_cases hg : i ∈ groups.flatten
    · obtain ⟨g, hg, hi⟩ := List.mem_flatten.1 hg
      obtain ⟨ps, a1, a2, a3⟩ := (hm g hg).frame i hi subs[i] (List.getElem?_eq_getElem h1)
      rw [List.getElem?_eq_getElem h2] at a1
      exact ⟨ps, Option.some.inj a1, a2, a3⟩
    · have := hf i hg
      rw [List.getElem?_eq_getElem h1, List.getElem?_eq_getElem h2] at this
      refine ⟨subs[i].particles, ?_, List.Sublist.refl _, fun _ => rfl⟩
      rw [Option.some.inj this]
      rfl
  refine ⟨h.congr (hF.imp ?_), hF, hm⟩
  rintro s s' ⟨ps, rfl, _⟩
  exact ⟨rfl, rfl⟩

end HBT.Props
