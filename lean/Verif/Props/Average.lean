import Verif.Lemmas.Average
import Mathlib.Data.Rat.Floor
import Mathlib.Algebra.Order.Ring.Rat
/-!
# C53: centres of mass and bulk velocities

`AveragePosition` and `AverageVelocity` give the centre and bulk velocity of haloes and
subhaloes. In a periodic box a halo that extends over less than half a box has a well-defined centre:
the mean of its particles in free space, up to whole box lengths.
-/
set_option linter.unusedSectionVars false
namespace HBT.Props
open HBT HBT.Model HBT.Spec
variable {K : Type} [Field K] [LinearOrder K] [IsStrictOrderedRing K]

/-- C53, without periodic boundary: total mass and mass-weighted mean position, whatever the result
held before. -/
theorem C53_position_free (B : K) (com : Fin 3 → K) (ps : List (K × (Fin 3 → K))) (hne : ps ≠ [])
    (hm : ∀ p ∈ ps, 0 < p.1) :
    averagePosition false B com ps = (massSum ps, massMean ps) :=
  averagePosition_free B com ps hne (massSum_pos ps hne hm).ne'

/-- C53, velocities: total mass and mass-weighted mean velocity. -/
theorem C53_velocity (cov : Fin 3 → K) (ps : List (K × (Fin 3 → K))) (hne : ps ≠ [])
    (hm : ∀ p ∈ ps, 0 < p.1) :
    averageVelocity cov ps = (massSum ps, massMean ps) := by
  have h := C53_position_free (1 : K) cov ps hne hm
  match ps, hne with
  | [p], _ => exact h
  | p :: q :: ps, _ =>
    rw [← h]
    simp only [averagePosition, averageVelocity]
    rw [fold_position_free, fold_velocity]
    simp

/-- C53, periodic boundary: for a halo that is compact in free space and recorded inside the box, the
total mass, and the mean position in free space up to whole box lengths. -/
theorem C53_position_periodic (B : K) (hB : 0 < B) (com : Fin 3 → K) (qs : List (BoxParticle K)) (hne : qs ≠ [])
    (hm : ∀ p ∈ qs, 0 < p.mass) (hc : CompactIn B qs) (hr : SeenInBox B qs) :
    (averagePosition true B com (qs.map (BoxParticle.seen B))).1 = massSum (qs.map BoxParticle.free) ∧
    SameModBox B (massMean (qs.map BoxParticle.free))
      (averagePosition true B com (qs.map (BoxParticle.seen B))).2 := by
  match qs, hne with
  | q0 :: qs, _ =>
    have hm' : massSum ((q0 :: qs).map BoxParticle.free) ≠ 0 := by
      refine (massSum_pos _ (by simp) ?_).ne'
      intro p hp
      obtain ⟨q, hq, rfl⟩ := List.mem_map.mp hp
      exact hm q hq
    rw [averagePosition_box B hB com q0 qs (fun p hp => ?_) hm']
    · exact ⟨rfl, fun j => ⟨q0.turns j, rfl⟩⟩
    · intro j
      exact ⟨hc p hp q0 (by simp) j,
        turns_near B hB p q0 (hc p hp q0 (by simp)) (hr p hp) (hr q0 (by simp)) j⟩

theorem SameModBox.symm {B : K} {x y : Fin 3 → K} (h : SameModBox B x y) : SameModBox B y x := by
  intro j
  obtain ⟨k, hk⟩ := h j
  exact ⟨-k, by rw [hk]; push_cast; ring⟩

theorem SameModBox.trans {B : K} {x y z : Fin 3 → K} (h : SameModBox B x y) (h' : SameModBox B y z) :
    SameModBox B x z := by
  intro j
  obtain ⟨k, hk⟩ := h j
  obtain ⟨k', hk'⟩ := h' j
  exact ⟨k + k', by rw [hk', hk]; push_cast; ring⟩

/-- C53: the order of the particles (and with it the particle used as origin) does not matter. -/
theorem C53_order (B : K) (hB : 0 < B) (com com' : Fin 3 → K) (qs qs' : List (BoxParticle K)) (hp : qs.Perm qs')
    (hne : qs ≠ []) (hm : ∀ p ∈ qs, 0 < p.mass) (hc : CompactIn B qs) (hr : SeenInBox B qs) :
    SameModBox B (averagePosition true B com (qs.map (BoxParticle.seen B))).2
      (averagePosition true B com' (qs'.map (BoxParticle.seen B))).2 := by
  have h1 := (C53_position_periodic B hB com qs hne hm hc hr).2
  have h2 := (C53_position_periodic B hB com' qs'
    (fun h => hne (by rw [h] at hp; exact hp.eq_nil))
    (fun p h => hm p (hp.mem_iff.mpr h)) (fun p h q h' => hc p (hp.mem_iff.mpr h) q (hp.mem_iff.mpr h'))
    (fun p h => hr p (hp.mem_iff.mpr h))).2
  rw [← massMean_perm (hp.map BoxParticle.free)] at h2
  exact SameModBox.trans (SameModBox.symm h1) h2

theorem massMean_shift (s : Fin 3 → K) (ps : List (K × (Fin 3 → K))) (hm : massSum ps ≠ 0) (j : Fin 3) :
    massMean (ps.map (fun p => (p.1, fun j => p.2 j + s j))) j = massMean ps j + s j := by
  have h1 : massSum (ps.map (fun p => (p.1, fun j => p.2 j + s j))) = massSum ps := by
    simp only [massSum, List.map_map]; rfl
  have h2 : ((ps.map (fun p => (p.1, fun j => p.2 j + s j))).map (fun p => p.1 * p.2 j)).sum
      = (ps.map (fun p => p.1 * p.2 j)).sum + massSum ps * s j := by
    clear hm h1
    induction ps with
    | nil => simp [massSum]
    | cons p ps ih =>
      simp only [List.map_cons, List.sum_cons, massSum] at ih ⊢
      rw [ih]; ring
  rw [massMean, h2, h1, add_div, mul_div_cancel_left₀ _ hm, massMean]

/-- C53: moving all particles by `s`, and recording them inside the box again, moves the centre by
`s`, up to whole box lengths. `turns'` are the new numbers of box lengths. -/
theorem C53_shift (B : K) (hB : 0 < B) (com com' s : Fin 3 → K) (qs : List (BoxParticle K))
    (turns' : BoxParticle K → Fin 3 → ℤ) (hne : qs ≠ []) (hm : ∀ p ∈ qs, 0 < p.mass) (hc : CompactIn B qs)
    (hr : SeenInBox B qs)
    (hr' : SeenInBox B (qs.map (fun p => BoxParticle.mk p.mass (fun j => p.pos j + s j) (turns' p)))) :
    SameModBox B (fun j => (averagePosition true B com (qs.map (BoxParticle.seen B))).2 j + s j)
      (averagePosition true B com'
        ((qs.map (fun p => BoxParticle.mk p.mass (fun j => p.pos j + s j) (turns' p))).map (BoxParticle.seen B))).2 := by
  have h1 := (C53_position_periodic B hB com qs hne hm hc hr).2
  have h2 := (C53_position_periodic B hB com'
    (qs.map (fun p => BoxParticle.mk p.mass (fun j => p.pos j + s j) (turns' p))) (by simpa using hne)
    (by
      intro p hp
      obtain ⟨q, hq, rfl⟩ := List.mem_map.mp hp
      exact hm q hq)
    (by
      intro p hp q hq j
      obtain ⟨p', hp', rfl⟩ := List.mem_map.mp hp
      obtain ⟨q', hq', rfl⟩ := List.mem_map.mp hq
      have := hc p' hp' q' hq' j
      simp only
      rw [show p'.pos j + s j - (q'.pos j + s j) = p'.pos j - q'.pos j by ring]
      exact this) hr').2
  refine SameModBox.trans (y := fun j => massMean (qs.map BoxParticle.free) j + s j) ?_ ?_
  · intro j
    obtain ⟨k, hk⟩ := (SameModBox.symm h1) j
    exact ⟨k, by beta_reduce; rw [hk]; ring⟩
  · have e : massMean ((qs.map (fun p => BoxParticle.mk p.mass (fun j => p.pos j + s j) (turns' p))).map BoxParticle.free)
        = fun j => massMean (qs.map BoxParticle.free) j + s j := by
      funext j
      rw [← massMean_shift s _ ?_ j]
      · simp only [List.map_map]; rfl
      · refine (massSum_pos _ (by simpa using hne) ?_).ne'
        intro p hp
        obtain ⟨q, hq, rfl⟩ := List.mem_map.mp hp
        exact hm q hq
    rw [e] at h2
    exact h2

/-- C53: with no particles nothing is written and the mass is zero. -/
theorem C53_empty (periodic : Bool) (B : K) (com : Fin 3 → K) :
    averagePosition periodic B com [] = (0, com) ∧ averageVelocity com [] = (0, com) := ⟨rfl, rfl⟩

/-- A halo across the edge of a box of length 10: two particles recorded at 9 and at 1, that is one
box length beyond 9. -/
def edgeHalo : List (BoxParticle ℚ) :=
  [⟨1, fun _ => 9, fun _ => 0⟩, ⟨2, fun _ => 11, fun _ => -1⟩]

/-- The halo meets the hypotheses of `C53_position_periodic`. -/
theorem edgeHalo_ok : (∀ p ∈ edgeHalo, 0 < p.mass) ∧ CompactIn 10 edgeHalo ∧ SeenInBox 10 edgeHalo := by
  refine ⟨by decide +kernel, ?_, ?_⟩
  · unfold CompactIn; decide +kernel
  · unfold SeenInBox; decide +kernel

/-- Finding: the centre of a compact halo recorded inside the box may be returned outside the
box (here 31/3 in a box of length 10), since the mean is not wrapped. -/
theorem C53_may_leave_box : ∃ (qs : List (BoxParticle ℚ)), qs ≠ [] ∧ (∀ p ∈ qs, 0 < p.mass) ∧ CompactIn 10 qs ∧
    SeenInBox 10 qs ∧ ¬ (averagePosition true 10 (fun _ => 0) (qs.map (BoxParticle.seen 10))).2 0 < 10 :=
  ⟨edgeHalo, by decide, edgeHalo_ok.1, edgeHalo_ok.2.1, edgeHalo_ok.2.2, by decide +kernel⟩

example : (averagePosition true 10 (fun _ => 0) (edgeHalo.map (BoxParticle.seen 10))).2 0 = 31/3 := by decide +kernel
example : massMean (edgeHalo.map BoxParticle.free) 0 = 31/3 := by decide +kernel
/-- From the other end the same point, one box length away. -/
example : (averagePosition true 10 (fun _ => 0) (edgeHalo.reverse.map (BoxParticle.seen 10))).2 0 = 1/3 := by decide +kernel

end HBT.Props
