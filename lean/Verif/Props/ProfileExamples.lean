import Verif.Props.Overdensity
import Mathlib.Analysis.SpecialFunctions.Pow.Real
import Mathlib.Analysis.Real.Sqrt
/-!
# C48 and C49: concrete cases
-/
namespace HBT.Props
open HBT.Model HBT.Spec

/-- A sort by radius. -/
def byRadius {K : Type} [LinearOrder K] (l : List (K × K)) : List (K × K) :=
  l.insertionSort (fun a b => a.1 ≤ b.1)

theorem byRadius_sort {K : Type} [LinearOrder K] : RadiusSort (byRadius (K := K)) where
  perm l := List.perm_insertionSort _ l
  sorted l := by
    haveI : Std.Total (fun a b : K × K => a.1 ≤ b.1) := ⟨fun a b => le_total a.1 b.1⟩
    haveI : IsTrans (K × K) (fun a b : K × K => a.1 ≤ b.1) := ⟨fun a b c h1 h2 => le_trans h1 h2⟩
    exact List.pairwise_insertionSort _ l

/-- Three particles at distances 0, 3 and 1 (squares 0, 9 and 1, with `sqrt` standing for an
increasing function), masses 1, 1 and 4. -/
def profEnv : ProfileEnv ℚ :=
  ⟨byRadius, fun x => x, fun x => x, 1 / 2, false, 10, 1, 1, 1, 7⟩
def profParts : List (Weighted ℚ) :=
  [(1, fun _ => 0), (1, fun i => if i = 0 then 3 else 0), (4, fun i => if i = 0 then 1 else 0)]
def profStart : ProfileProps ℚ := ⟨0, 0, 3, 4, 0, 0, 8, 9⟩

-- The hypotheses of C48_vmax, C48_half and C49_stale_finding hold of this subhalo.
example : RadiusSort profEnv.sort ∧ 1 < 3 ∧ 3 ≤ profParts.length ∧ 0 < profEnv.soft ∧
    0 ≤ profEnv.g / profEnv.a ∧ (∀ x y : ℚ, x ≤ y → profEnv.sqrt x ≤ profEnv.sqrt y) ∧
    ∀ p ∈ profParts, 0 ≤ p.1 :=
  ⟨byRadius_sort, by decide, by decide, by decide +kernel, by decide +kernel, fun _ _ h => h,
    by decide +kernel⟩

-- The peak is at the particle of mass 4, not at the outermost one. No radius is overdense here, and
-- the earlier size (radius 8, mass 9) stays.
example : calculateProfile profEnv (fun _ => 0) profParts 3 profStart
    = .ok ⟨1, 5, 5, 7, 9, 1, 8, 9⟩ := by decide +kernel

-- The record survives a snapshot at which the subhalo is smaller.
example : calculateProfile profEnv (fun _ => 0) profParts 3 ⟨0, 0, 6, 4, 0, 0, 0, 0⟩
    = .ok ⟨1, 5, 6, 4, 9, 1, 0, 0⟩ := by decide +kernel

-- A history with one resolved and one unresolved snapshot.
example : Lived profStart
      [ProfileCall.mk profEnv (fun _ => 0) profParts 3, ProfileCall.mk profEnv (fun _ => 0) profParts 1]
      [⟨1, 5, 5, 7, 9, 1, 8, 9⟩, ⟨0, 0, 5, 7, 0, 0, 0, 0⟩] ∧
    vmaxHistory [ProfileCall.mk profEnv (fun _ => 0) profParts 3,
      ProfileCall.mk profEnv (fun _ => 0) profParts 1]
      [⟨1, 5, 5, 7, 9, 1, 8, 9⟩, ⟨0, 0, 5, 7, 0, 0, 0, 0⟩] = [(7, 5)] := by
  refine ⟨⟨?_, ?_, trivial⟩, ?_⟩ <;> decide +kernel

/-- The hypothesis of C49_stale_finding: nothing is overdense. -/
example : ∀ b ∈ profParts.map (fun p => (profEnv.sqrt
      (periodicDistance2 profEnv.periodic profEnv.boxsize (fun _ => 0) p.2), p.1)),
    ¬ Overdense (profParts.map (fun p => (profEnv.sqrt
      (periodicDistance2 profEnv.periodic profEnv.boxsize (fun _ => 0) p.2), p.1))) 100
      (resolved profEnv.soft b.1) := by
  unfold Overdense
  decide +kernel

/-! Cube roots need the reals. -/

theorem real_cbrt (x : ℝ) (hx : 0 ≤ x) : 0 ≤ x ^ ((1 : ℝ) / 3) ∧ (x ^ ((1 : ℝ) / 3)) ^ 3 = x := by
  refine ⟨Real.rpow_nonneg hx _, ?_⟩
  rw [← Real.rpow_natCast, ← Real.rpow_mul hx]
  norm_num

/-- Two particles of mass 1, one at the centre and one at distance 1, softening 1/10, and a threshold
of 100: the density inside the softening length exceeds it. -/
noncomputable def realEnv : ProfileEnv ℝ :=
  ⟨byRadius, Real.sqrt, fun x => x ^ ((1 : ℝ) / 3), 1 / 10, false, 10, 1, 1, 1, 7⟩
noncomputable def realParts : List (Weighted ℝ) :=
  [(1, fun _ => 0), (1, fun i => if i = 0 then 1 else 0)]

example : ∃ s', calculateProfile realEnv (fun _ => 0) realParts 2 ⟨0, 0, 0, 0, 0, 0, 0, 0⟩ = .ok s' ∧
    100 * s'.r200 ^ 3 = s'.m200 ∧ 1 / 10 < s'.r200 := by
  have hb : realParts.map (fun p => (realEnv.sqrt
      (periodicDistance2 realEnv.periodic realEnv.boxsize (fun _ => 0) p.2), p.1))
      = [((0 : ℝ), (1 : ℝ)), (1, 1)] := by
    simp [realParts, realEnv, periodicDistance2]
  obtain ⟨s', h1, b, hb1, h2, h3, h4, -⟩ := C49_bound_size realEnv byRadius_sort (fun _ => 0) realParts 2
    (by norm_num) (by simp [realParts]) ⟨0, 0, 0, 0, 0, 0, 0, 0⟩ (by simp [realEnv])
    (by intro p hp; simp [realParts] at hp; rcases hp with rfl | rfl <;> norm_num)
    real_cbrt 100 (by simp [realEnv]; norm_num) (by norm_num) [(0, 1), (1, 1)]
    (by rw [← hb]; rfl)
    ⟨(0, 1), by simp, by
      norm_num [Overdense, enclosedMass, resolved, realEnv, List.filter]⟩
  refine ⟨s', h1, h3, lt_of_le_of_lt ?_ h4⟩
  exact le_max_right _ _

-- The hypotheses of C49_constant_mass and C49_iterative: three particles, one of them far out.
example : (0 : ℝ) < 1 ∧ (0 : ℝ) < 2 * 1 ^ 2 / (2 * 1) * 1 ^ 3 ∧
    [(0 : ℝ), 1 / 2, 5].Pairwise (· ≤ ·) ∧ (∀ r ∈ [(0 : ℝ), 1 / 2, 5], 0 ≤ r) ∧
    4 * (1 / 100000) * (([(0 : ℝ), 1 / 2, 5].length : ℕ) : ℝ) ≤ 1 := by
  norm_num

-- The scan on three particles: two are inside the overdense region.
example : scanCount (1 : ℚ) [(0 : ℚ), 1 / 2, 5].reverse = 2 := by decide +kernel

end HBT.Props
