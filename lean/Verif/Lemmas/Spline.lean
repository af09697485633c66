import Verif.Spec.Spline
import Mathlib.Tactic.Ring
import Mathlib.Tactic.Linarith
import Mathlib.Tactic.FieldSimp
import Mathlib.Tactic.NormNum
import Mathlib.Tactic.Positivity
/-!
# The softened potential is monotonic (C77)
-/
namespace HBT.Spl
open HBT.Spec
variable {K : Type} [Field K] [LinearOrder K] [IsStrictOrderedRing K]

/-- The inner part of the spline. -/
def inner (u : K) : K := 14 / 5 - 16 / 3 * u ^ 2 + 48 / 5 * u ^ 4 - 32 / 5 * u ^ 5

/-- `u` times the outer part of the spline. -/
def outer (u : K) : K := 1 - (1 - u) ^ 5 * (16 / 5 - 32 / 15 * (1 - u))

theorem kernel_inner {u : K} (h : u ≤ 1 / 2) (h0 : 0 ≤ u) : splineKernel u = inner u := by
  unfold splineKernel inner
  rcases lt_or_eq_of_le h with h | h
  · rw [if_pos h]
  · subst h
    norm_num

theorem kernel_outer {u : K} (h : 1 / 2 ≤ u) (h1 : u ≤ 1) : u * splineKernel u = outer u := by
  have hu : 0 < u := by linarith
  unfold splineKernel outer
  rw [if_neg (not_lt.2 h)]
  rcases lt_or_eq_of_le h1 with h1 | h1
  · rw [if_pos h1]
    field_simp
    ring
  · subst h1
    norm_num

theorem kernel_far {u : K} (h : 1 ≤ u) : splineKernel u = 1 / u := by
  unfold splineKernel
  rw [if_neg (by linarith), if_neg (by linarith)]

theorem inner_anti {u v : K} (h0 : 0 ≤ u) (huv : u ≤ v) (hv : v ≤ 1 / 2) : inner v ≤ inner u := by
  have e : inner u - inner v = (v - u) * ((u + v) * (16 / 3 - 48 / 5 * (u ^ 2 + v ^ 2)) +
      32 / 5 * (u ^ 4 + u ^ 3 * v + u ^ 2 * v ^ 2 + u * v ^ 3 + v ^ 4)) := by unfold inner; ring
  have hv0 : 0 ≤ v := le_trans h0 huv
  have h1 : u ^ 2 ≤ 1 / 4 := by nlinarith
  have h2 : v ^ 2 ≤ 1 / 4 := by nlinarith
  have : 0 ≤ inner u - inner v := by
    rw [e]
    refine mul_nonneg (by linarith) (add_nonneg (mul_nonneg (by linarith) (by linarith)) (by positivity))
  linarith

theorem inner_mono {u v : K} (h0 : 0 ≤ u) (huv : u ≤ v) (hv : v ≤ 1 / 2) : u * inner u ≤ v * inner v := by
  have hv0 : 0 ≤ v := le_trans h0 huv
  have e : v * inner v - u * inner u = (v - u) * (14 / 5 - 16 / 3 * (u ^ 2 + u * v + v ^ 2) +
      48 / 5 * (u ^ 4 + u ^ 3 * v + u ^ 2 * v ^ 2 + u * v ^ 3 + v ^ 4) -
      32 / 5 * (v * (u ^ 4 + u ^ 3 * v + u ^ 2 * v ^ 2 + u * v ^ 3 + v ^ 4) + u ^ 5)) := by unfold inner; ring
  have hS : 5 / 9 * (u ^ 2 + u * v + v ^ 2) ^ 2 ≤ u ^ 4 + u ^ 3 * v + u ^ 2 * v ^ 2 + u * v ^ 3 + v ^ 4 := by
    have e2 : u ^ 4 + u ^ 3 * v + u ^ 2 * v ^ 2 + u * v ^ 3 + v ^ 4 - 5 / 9 * (u ^ 2 + u * v + v ^ 2) ^ 2 =
        (u - v) ^ 2 * (4 / 9 * u ^ 2 + 7 / 9 * u * v + 4 / 9 * v ^ 2) := by ring
    have : 0 ≤ (u - v) ^ 2 * (4 / 9 * u ^ 2 + 7 / 9 * u * v + 4 / 9 * v ^ 2) := by positivity
    linarith
  have hS0 : 0 ≤ u ^ 4 + u ^ 3 * v + u ^ 2 * v ^ 2 + u * v ^ 3 + v ^ 4 := by positivity
  have hu5 : u ^ 5 ≤ 1 / 10 * (u ^ 4 + u ^ 3 * v + u ^ 2 * v ^ 2 + u * v ^ 3 + v ^ 4) := by
    have a1 : u ^ 5 ≤ 1 / 2 * u ^ 4 := by
      have := mul_le_mul_of_nonneg_right (le_trans huv hv) (pow_nonneg h0 4)
      calc u ^ 5 = u * u ^ 4 := by ring
        _ ≤ _ := this
    have a2 : 5 * u ^ 4 ≤ u ^ 4 + u ^ 3 * v + u ^ 2 * v ^ 2 + u * v ^ 3 + v ^ 4 := by
      have b1 : u ^ 3 * u ≤ u ^ 3 * v := mul_le_mul_of_nonneg_left huv (by positivity)
      have b2 : u ^ 2 * u ^ 2 ≤ u ^ 2 * v ^ 2 := mul_le_mul_of_nonneg_left (pow_le_pow_left₀ h0 huv 2) (by positivity)
      have b3 : u * u ^ 3 ≤ u * v ^ 3 := mul_le_mul_of_nonneg_left (pow_le_pow_left₀ h0 huv 3) h0
      have b4 : u ^ 4 ≤ v ^ 4 := pow_le_pow_left₀ h0 huv 4
      nlinarith
    linarith
  generalize hSd : u ^ 4 + u ^ 3 * v + u ^ 2 * v ^ 2 + u * v ^ 3 + v ^ 4 = S at *
  generalize hq : u ^ 2 + u * v + v ^ 2 = q at *
  have hvS : v * S ≤ 1 / 2 * S := mul_le_mul_of_nonneg_right hv hS0
  have : 0 ≤ v * inner v - u * inner u := by
    rw [e]
    refine mul_nonneg (by linarith) ?_
    nlinarith [sq_nonneg (q - 5 / 6)]
  linarith

/-- `t^5(16/5-32/15 t)` grows up to 1/2. -/
theorem outer_mono {u v : K} (h0 : 1 / 2 ≤ u) (huv : u ≤ v) (hv : v ≤ 1) : outer u ≤ outer v := by
  have e : outer v - outer u = (v - u) * (16 / 5 * ((1 - u) ^ 4 + (1 - u) ^ 3 * (1 - v) + (1 - u) ^ 2 * (1 - v) ^ 2 + (1 - u) * (1 - v) ^ 3 + (1 - v) ^ 4) -
      32 / 15 * ((1 - u) * ((1 - u) ^ 4 + (1 - u) ^ 3 * (1 - v) + (1 - u) ^ 2 * (1 - v) ^ 2 + (1 - u) * (1 - v) ^ 3 + (1 - v) ^ 4) + (1 - v) ^ 5)) := by
    unfold outer; ring
  have ha : 0 ≤ 1 - u := by linarith
  have hb : 0 ≤ 1 - v := by linarith
  have hS0 : (1 - v) ^ 4 ≤ (1 - u) ^ 4 + (1 - u) ^ 3 * (1 - v) + (1 - u) ^ 2 * (1 - v) ^ 2 + (1 - u) * (1 - v) ^ 3 + (1 - v) ^ 4 := by
    have : 0 ≤ (1 - u) ^ 4 + (1 - u) ^ 3 * (1 - v) + (1 - u) ^ 2 * (1 - v) ^ 2 + (1 - u) * (1 - v) ^ 3 := by positivity
    linarith
  have h4 : 0 ≤ (1 - v) ^ 4 := by positivity
  have h5 : (1 - v) ^ 5 ≤ 1 / 2 * (1 - v) ^ 4 := by
    calc (1 - v) ^ 5 = (1 - v) * (1 - v) ^ 4 := by ring
      _ ≤ 1 / 2 * (1 - v) ^ 4 := mul_le_mul_of_nonneg_right (by linarith) h4
  generalize (1 - u) ^ 4 + (1 - u) ^ 3 * (1 - v) + (1 - u) ^ 2 * (1 - v) ^ 2 + (1 - u) * (1 - v) ^ 3 + (1 - v) ^ 4 = S at *
  have hvS : (1 - u) * S ≤ 1 / 2 * S := mul_le_mul_of_nonneg_right (by linarith) (by linarith)
  have : 0 ≤ outer v - outer u := by
    rw [e]
    refine mul_nonneg (by linarith) ?_
    nlinarith
  linarith

theorem outer_anti {u v : K} (h0 : 1 / 2 ≤ u) (huv : u ≤ v) (hv : v ≤ 1) : u * outer v ≤ v * outer u := by
  have e : v * outer u - u * outer v = (v - u) * (1 - v * (16 / 5 * ((1 - u) ^ 4 + (1 - u) ^ 3 * (1 - v) + (1 - u) ^ 2 * (1 - v) ^ 2 + (1 - u) * (1 - v) ^ 3 + (1 - v) ^ 4) -
      32 / 15 * ((1 - u) ^ 5 + (1 - u) ^ 4 * (1 - v) + (1 - u) ^ 3 * (1 - v) ^ 2 + (1 - u) ^ 2 * (1 - v) ^ 3 + (1 - u) * (1 - v) ^ 4 + (1 - v) ^ 5)) -
      (1 - v) ^ 5 * (16 / 5 - 32 / 15 * (1 - v))) := by
    unfold outer; ring
  have ha : 0 ≤ 1 - u := by linarith
  have hb : 0 ≤ 1 - v := by linarith
  have ha' : 1 - u ≤ 1 / 2 := by linarith
  have hb' : 1 - v ≤ 1 / 2 := by linarith
  have pw : ∀ (a b : K) (i j : Nat), 0 ≤ a → 0 ≤ b → a ≤ 1 / 2 → b ≤ 1 / 2 → a ^ i * b ^ j ≤ (1 / 2) ^ (i + j) := by
    intro a b i j h1 h2 h3 h4
    rw [pow_add]
    exact mul_le_mul (pow_le_pow_left₀ h1 h3 i) (pow_le_pow_left₀ h2 h4 j) (by positivity) (by positivity)
  have hS : (1 - u) ^ 4 + (1 - u) ^ 3 * (1 - v) + (1 - u) ^ 2 * (1 - v) ^ 2 + (1 - u) * (1 - v) ^ 3 + (1 - v) ^ 4 ≤ 5 / 16 := by
    have p1 := pw _ _ 4 0 ha hb ha' hb'
    have p2 := pw _ _ 3 1 ha hb ha' hb'
    have p3 := pw _ _ 2 2 ha hb ha' hb'
    have p4 := pw _ _ 1 3 ha hb ha' hb'
    have p5 := pw _ _ 0 4 ha hb ha' hb'
    norm_num at p1 p2 p3 p4 p5 ⊢
    linarith
  have hT : 0 ≤ (1 - u) ^ 5 + (1 - u) ^ 4 * (1 - v) + (1 - u) ^ 3 * (1 - v) ^ 2 + (1 - u) ^ 2 * (1 - v) ^ 3 + (1 - u) * (1 - v) ^ 4 + (1 - v) ^ 5 := by positivity
  have hw : (1 - v) ^ 5 * (16 / 5 - 32 / 15 * (1 - v)) ≤ 1 / 5 * (1 - v) := by
    have h4 : (1 - v) ^ 4 ≤ 1 / 16 := by
      have := pw _ _ 4 0 hb hb hb' hb'
      norm_num at this ⊢
      linarith
    have h5 : (1 - v) ^ 5 ≤ 1 / 16 * (1 - v) := by
      calc (1 - v) ^ 5 = (1 - v) ^ 4 * (1 - v) := by ring
        _ ≤ 1 / 16 * (1 - v) := mul_le_mul_of_nonneg_right h4 hb
    have h6 : 0 ≤ (1 - v) ^ 5 := by positivity
    nlinarith
  generalize (1 - u) ^ 4 + (1 - u) ^ 3 * (1 - v) + (1 - u) ^ 2 * (1 - v) ^ 2 + (1 - u) * (1 - v) ^ 3 + (1 - v) ^ 4 = S at *
  generalize (1 - u) ^ 5 + (1 - u) ^ 4 * (1 - v) + (1 - u) ^ 3 * (1 - v) ^ 2 + (1 - u) ^ 2 * (1 - v) ^ 3 + (1 - u) * (1 - v) ^ 4 + (1 - v) ^ 5 = T at *
  have hv0 : 0 ≤ v := by linarith
  have h7 : v * (16 / 5 * S - 32 / 15 * T) ≤ v * 1 := mul_le_mul_of_nonneg_left (by linarith) hv0
  have : 0 ≤ v * outer u - u * outer v := by
    rw [e]
    exact mul_nonneg (by linarith) (by linarith)
  linarith

/-- The potential gets weaker with the distance. -/
theorem kernel_anti {u v : K} (h0 : 0 ≤ u) (huv : u ≤ v) : splineKernel v ≤ splineKernel u := by
  have far : ∀ u v : K, 1 ≤ u → u ≤ v → splineKernel v ≤ splineKernel u := by
    intro u v h1 h2
    rw [kernel_far h1, kernel_far (by linarith)]
    exact one_div_le_one_div_of_le (by linarith) h2
  have mid : ∀ u v : K, 1 / 2 ≤ u → v ≤ 1 → u ≤ v → splineKernel v ≤ splineKernel u := by
    intro u v h1 h2 h3
    have hu : 0 < u := by linarith
    have hv : 0 < v := by linarith
    have := outer_anti h1 h3 h2
    rw [← kernel_outer h1 (by linarith), ← kernel_outer (by linarith) h2] at this
    have h : u * v * splineKernel v ≤ u * v * splineKernel u := by linarith
    exact le_of_mul_le_mul_left h (mul_pos hu hv)
  have near : ∀ u v : K, 0 ≤ u → v ≤ 1 / 2 → u ≤ v → splineKernel v ≤ splineKernel u := by
    intro u v h1 h2 h3
    rw [kernel_inner h2 (by linarith), kernel_inner (by linarith) h1]
    exact inner_anti h1 h3 h2
  have upto : ∀ u v : K, 0 ≤ u → u ≤ v → v ≤ 1 → splineKernel v ≤ splineKernel u := by
    intro u v h1 h2 h3
    by_cases hv : v ≤ 1 / 2
    · exact near u v h1 hv h2
    by_cases hu : 1 / 2 ≤ u
    · exact mid u v hu h3 h2
    · exact le_trans (mid (1 / 2) v le_rfl h3 (by linarith)) (near u (1 / 2) h1 le_rfl (by linarith))
  by_cases hv : v ≤ 1
  · exact upto u v h0 huv hv
  by_cases hu : 1 ≤ u
  · exact far u v hu huv
  · exact le_trans (far 1 v le_rfl (by linarith)) (upto u 1 h0 (by linarith) le_rfl)

/-- But not faster than that of a point mass. -/
theorem kernel_mono {u v : K} (h0 : 0 ≤ u) (huv : u ≤ v) : u * splineKernel u ≤ v * splineKernel v := by
  have far : ∀ u v : K, 1 ≤ u → u ≤ v → u * splineKernel u ≤ v * splineKernel v := by
    intro u v h1 h2
    rw [kernel_far h1, kernel_far (by linarith), mul_one_div_cancel (by linarith), mul_one_div_cancel (by linarith)]
  have mid : ∀ u v : K, 1 / 2 ≤ u → v ≤ 1 → u ≤ v → u * splineKernel u ≤ v * splineKernel v := by
    intro u v h1 h2 h3
    rw [kernel_outer h1 (by linarith), kernel_outer (by linarith) h2]
    exact outer_mono h1 h3 h2
  have near : ∀ u v : K, 0 ≤ u → v ≤ 1 / 2 → u ≤ v → u * splineKernel u ≤ v * splineKernel v := by
    intro u v h1 h2 h3
    rw [kernel_inner h2 (by linarith), kernel_inner (by linarith) h1]
    exact inner_mono h1 h3 h2
  have upto : ∀ u v : K, 0 ≤ u → u ≤ v → v ≤ 1 → u * splineKernel u ≤ v * splineKernel v := by
    intro u v h1 h2 h3
    by_cases hv : v ≤ 1 / 2
    · exact near u v h1 hv h2
    by_cases hu : 1 / 2 ≤ u
    · exact mid u v hu h3 h2
    · exact le_trans (near u (1 / 2) h1 le_rfl (by linarith)) (mid (1 / 2) v le_rfl h3 (by linarith))
  by_cases hv : v ≤ 1
  · exact upto u v h0 huv hv
  by_cases hu : 1 ≤ u
  · exact far u v hu huv
  · exact le_trans (upto u 1 h0 (by linarith) le_rfl) (far 1 v le_rfl (by linarith))

theorem kernel_pos {u : K} (h0 : 0 ≤ u) : 0 < splineKernel u := by
  by_cases h : u ≤ 1
  · have := kernel_anti h0 h
    rw [kernel_far le_rfl] at this
    norm_num at this
    linarith
  · rw [kernel_far (by linarith)]
    exact one_div_pos.2 (by linarith)

theorem kernel_ge_one {u : K} (h0 : 0 ≤ u) (h : u ≤ 1) : 1 ≤ splineKernel u := by
  have := kernel_anti h0 h
  rw [kernel_far le_rfl] at this
  simpa using this

end HBT.Spl
