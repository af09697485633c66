import Verif.Lemmas.Visit
import Verif.Spec.Mask
/-!
# Helper lemmas for masking
-/
namespace HBT
open HBT.Model HBT.Spec HBT.Spec.Forest
variable {K D : Type}

theorem maskParticles_spec : ∀ (ps : List (Particle D)) (excl : List Int),
    (maskParticles excl ps).2.Sublist ps ∧ ((maskParticles excl ps).2.map Particle.id).Nodup ∧
    (∀ i, i ∈ (maskParticles excl ps).2.map Particle.id ↔ i ∈ ps.map Particle.id ∧ i ∉ excl) ∧
    (∀ i, i ∈ (maskParticles excl ps).1 ↔ i ∈ excl ∨ i ∈ ps.map Particle.id) := by
  intro ps
  induction ps with
  | nil => intro excl; simp [maskParticles]
  | cons p ps ih =>
    intro excl
    rw [maskParticles]
    by_cases h : p.id ∈ excl
    · rw [if_pos h]
      obtain ⟨h1, h2, h3, h4⟩ := ih excl
      refine ⟨h1.cons _, h2, fun i => ?_, fun i => ?_⟩
      · rw [h3, List.map_cons, List.mem_cons]
        constructor
        · rintro ⟨a, b⟩; exact ⟨Or.inr a, b⟩
        · rintro ⟨rfl | a, b⟩
          · exact absurd h b
          · exact ⟨a, b⟩
      · rw [h4, List.map_cons, List.mem_cons]
        constructor
        · rintro (a | a)
          · exact Or.inl a
          · exact Or.inr (Or.inr a)
        · rintro (a | rfl | a)
          · exact Or.inl a
          · exact Or.inl h
          · exact Or.inr a
    · rw [if_neg h]
      obtain ⟨h1, h2, h3, h4⟩ := ih (p.id :: excl)
      refine ⟨h1.cons₂ _, ?_, fun i => ?_, fun i => ?_⟩
      · rw [List.map_cons, List.nodup_cons]
        refine ⟨fun hm => ?_, h2⟩
        have := ((h3 p.id).1 hm).2
        simp at this
      · simp only [List.map_cons, List.mem_cons]
        rw [h3, List.mem_cons]
        constructor
        · rintro (rfl | ⟨a, b⟩)
          · exact ⟨Or.inl rfl, h⟩
          · exact ⟨Or.inr a, fun hx => b (Or.inr hx)⟩
        · rintro ⟨rfl | a, b⟩
          · exact Or.inl rfl
          · by_cases e : i = p.id
            · exact Or.inl e
            · exact Or.inr ⟨a, by rintro (x | x); exacts [e x, b x]⟩
      · simp only [List.map_cons, List.mem_cons]
        rw [h4, List.mem_cons]
        constructor
        · rintro ((rfl | a) | a)
          · exact Or.inr (Or.inl rfl)
          · exact Or.inl a
          · exact Or.inr (Or.inr a)
        · rintro (a | rfl | a)
          · exact Or.inl (Or.inr a)
          · exact Or.inl (Or.inl rfl)
          · exact Or.inr a

/-- Masking the subhaloes `ids` one after the other. -/
theorem mask_run : ∀ (ids : List Nat) (excl : List Int) (subs : List (Sub K D)), ids.Nodup →
    (∀ i ∈ ids, i < subs.length) →
    ∃ e' subs', runAll maskOne ids (excl, subs) = .ok (e', subs') ∧ subs'.length = subs.length ∧
      (∀ x, x ∉ ids → subs'[x]? = subs[x]?) ∧
      ∀ (pre : List Nat) (x : Nat) (post : List Nat) (s : Sub K D), ids = pre ++ x :: post → subs[x]? = some s →
        ∃ ps, subs'[x]? = some (s.withParticles ps) ∧ (s.nbound ≤ 1 → ps = s.particles) ∧
          (1 < s.nbound → ps.Sublist s.particles ∧ (ps.map Particle.id).Nodup ∧
            ∀ i, i ∈ ps.map Particle.id ↔ i ∈ sourceIds s ∧ i ∉ excl ∧
              ∀ y ∈ pre, ∀ t, subs[y]? = some t → 1 < t.nbound → i ∉ sourceIds t) := by
  intro ids
  induction ids with
  | nil =>
    intro excl subs _ _
    refine ⟨excl, subs, rfl, rfl, fun _ _ => rfl, ?_⟩
    intro pre x post s e
    simp at e
  | cons y ids ih =>
    intro excl subs hnd hlt
    rw [List.nodup_cons] at hnd
    have hy : y < subs.length := hlt y (by simp)
    have hgy : subs[y]? = some subs[y] := List.getElem?_eq_getElem hy
    -- the first subhalo
    have hfirst : ∃ e1 subs1, maskOne y (excl, subs) = .ok (e1, subs1) ∧ subs1.length = subs.length ∧
        (∀ x, x ≠ y → subs1[x]? = subs[x]?) ∧
        (∃ ps, subs1[y]? = some (subs[y].withParticles ps) ∧ (subs[y].nbound ≤ 1 → ps = subs[y].particles) ∧
          (1 < subs[y].nbound → ps.Sublist subs[y].particles ∧ (ps.map Particle.id).Nodup ∧
            ∀ i, i ∈ ps.map Particle.id ↔ i ∈ sourceIds subs[y] ∧ i ∉ excl)) ∧
        ∀ i, i ∈ e1 ↔ i ∈ excl ∨ (1 < subs[y].nbound ∧ i ∈ sourceIds subs[y]) := by
      rw [maskOne, get_some hgy, Outcome.bind_ok]
      by_cases hn : subs[y].nbound ≤ 1
      · rw [if_pos hn]
        exact ⟨excl, subs, rfl, rfl, fun _ _ => rfl, ⟨subs[y].particles, by rw [hgy]; rfl, fun _ => rfl, fun h => by omega⟩,
          fun i => ⟨Or.inl, fun h => h.resolve_right (fun h => by omega)⟩⟩
      · rw [if_neg hn]
        obtain ⟨h1, h2, h3, h4⟩ := maskParticles_spec subs[y].particles excl
        refine ⟨(maskParticles excl subs[y].particles).1, subs.set y (subs[y].withParticles (maskParticles excl subs[y].particles).2),
          ?_, by simp, ?_, ⟨(maskParticles excl subs[y].particles).2, List.getElem?_set_self hy, fun h => absurd h hn,
            fun _ => ⟨h1, h2, h3⟩⟩, ?_⟩
        · simp only
          rw [Outcome.set_of_lt hy]
          rfl
        · intro x hx
          exact List.getElem?_set_ne (Ne.symm hx)
        · intro i
          rw [h4]
          constructor
          · rintro (a | a)
            · exact Or.inl a
            · exact Or.inr ⟨by omega, a⟩
          · rintro (a | a)
            · exact Or.inl a
            · exact Or.inr a.2
    obtain ⟨e1, subs1, q1, q2, q3, q4, q5⟩ := hfirst
    obtain ⟨e', subs', r1, r2, r3, r4⟩ := ih e1 subs1 hnd.2 (fun i hi => by rw [q2]; exact hlt i (by simp [hi]))
    refine ⟨e', subs', ?_, by rw [r2, q2], ?_, ?_⟩
    · rw [runAll, q1, Outcome.bind_ok, r1]
    · intro x hx
      rw [List.mem_cons, not_or] at hx
      rw [r3 x hx.2, q3 x hx.1]
    · intro pre x post s e hs
      cases pre with
      | nil =>
        simp only [List.nil_append, List.cons.injEq] at e
        obtain ⟨rfl, rfl⟩ := e
        rw [hgy] at hs
        cases hs
        obtain ⟨ps, p1, p2, p3⟩ := q4
        refine ⟨ps, by rw [r3 y hnd.1, p1], p2, fun h => ?_⟩
        obtain ⟨a, b, c⟩ := p3 h
        exact ⟨a, b, fun i => by rw [c]; simp⟩
      | cons z pre =>
        simp only [List.cons_append, List.cons.injEq] at e
        obtain ⟨rfl, rfl⟩ := e
        have hxy : x ≠ y := by rintro rfl; exact hnd.1 (by simp)
        obtain ⟨ps, p1, p2, p3⟩ := r4 pre x post s rfl (by rw [q3 x hxy, hs])
        refine ⟨ps, p1, p2, fun h => ?_⟩
        obtain ⟨a, b, c⟩ := p3 h
        refine ⟨a, b, fun i => ?_⟩
        rw [c, q5]
        have hpre : ∀ w ∈ pre, w ≠ y := by
          rintro w hw rfl
          exact hnd.1 (by simp [hw])
        constructor
        · rintro ⟨a1, a2, a3⟩
          refine ⟨a1, fun hx => a2 (Or.inl hx), ?_⟩
          intro w hw t ht htn
          rw [List.mem_cons] at hw
          rcases hw with rfl | hw
          · rw [hgy] at ht
            cases ht
            exact fun hx => a2 (Or.inr ⟨htn, hx⟩)
          · exact a3 w hw t (by rw [q3 w (hpre w hw), ht]) htn
        · rintro ⟨a1, a2, a3⟩
          refine ⟨a1, ?_, ?_⟩
          · rintro (hx | ⟨hx1, hx2⟩)
            · exact a2 hx
            · exact a3 y (by simp) _ hgy hx1 hx2
          · intro w hw t ht htn
            exact a3 w (by simp [hw]) t (by rw [← q3 w (hpre w hw), ht]) htn

theorem maskOne_nest {subs subs' : List (Sub K D)} {e e' : List Int} {id : Nat}
    (h : maskOne id (e, subs) = .ok (e', subs')) : subs'.map Sub.nested = subs.map Sub.nested := by
  rw [maskOne] at h
  cases hg : subs[id]? with
  | none => simp [Outcome.get, hg] at h
  | some s =>
    have hid : id < subs.length := (List.getElem?_eq_some_iff.1 hg).1
    rw [get_some hg, Outcome.bind_ok] at h
    by_cases hn : s.nbound ≤ 1
    · rw [if_pos hn] at h
      cases h
      rfl
    · rw [if_neg hn] at h
      simp only at h
      rw [Outcome.set_of_lt hid] at h
      cases h
      rw [List.map_set, Sub.withParticles_nested]
      apply List.ext_getElem?
      intro i
      rw [List.getElem?_set]
      by_cases e : id = i
      · subst e
        simp [hg, hid]
        exact ((List.getElem?_eq_some_iff.1 hg).2 ▸ rfl)
      · simp [e]

/-- `Mask` on a tree masks its subhaloes one after the other, children first. -/
theorem mask_eq {subs : List (Sub K D)} {c : Nat} {k : Forest Nat} (hs : (Forest.cons c k .nil).Shows (idxKids subs))
    {fuel : Nat} (hf : (Forest.cons c k .nil).height ≤ fuel) (e : List Int) :
    mask fuel c (e, subs) = runAll maskOne (Forest.cons c k .nil).post (e, subs) := by
  have := (visitKids_eq_runAll (σ := List Int × List (Sub K D))
    (nest := fun id st => do let s ← Outcome.get st.2 id; .ok s.nested) (leave := maskOne)
    (fun st => st.2.map Sub.nested = subs.map Sub.nested) (by
      rintro id ⟨e1, s1⟩ ⟨e2, s2⟩ h1 h2
      simp only at h1 ⊢
      rw [maskOne_nest h2, h1]) (Forest.cons c k .nil) fuel (e, subs) hf rfl (by
      refine shows_congr _ ?_ hs
      rintro a _ l ⟨s, h1, h2⟩ ⟨e1, s1⟩ hst
      simp only at hst
      have : (s1.map Sub.nested)[a]? = some (ints l) := by
        rw [hst, List.getElem?_map, h1, Option.map_some, h2]
      rw [List.getElem?_map] at this
      obtain ⟨u, hu, hue⟩ := Option.map_eq_some_iff.1 this
      rw [get_some hu, Outcome.bind_ok, hue])).1
  rw [← this, roots_cons, roots_nil, ints_cons, ints_nil, visitKids, if_neg (by omega), Int.toNat_natCast, mask]
  cases visit (fun id (st : List Int × List (Sub K D)) => do let s ← Outcome.get st.2 id; .ok s.nested) (fun _ _ => Outcome.ok ())
    (fun _ _ st => .ok st) (fun _ => maskOne) fuel c (e, subs) <;> rfl

end HBT
