import Verif.Props.OctSearch
import Verif.Spec.Kernel
import Verif.Lemmas.Origin
/-!
# C42: the kernel of the density estimate is the cubic spline
-/
namespace HBT.Props
open HBT.Model HBT.Spec HBT.OT

theorem pi_inv_bounds : |2546479089470 / 1000000000000 - 8 / Real.pi| ≤ 4 / 10 ^ 13 := by
  have h1 := Real.pi_gt_d20
  have h2 := Real.pi_lt_d20
  have hp : 0 < Real.pi := Real.pi_pos
  rw [abs_le]
  constructor
  · have : 8 / Real.pi ≤ 2546479089470 / 1000000000000 + 4 / 10 ^ 13 := by
      rw [div_le_iff₀ hp]; norm_num at *; linarith
    linarith
  · have : 2546479089470 / 1000000000000 - 4 / 10 ^ 13 ≤ 8 / Real.pi := by
      rw [le_div_iff₀ hp]; norm_num at *; linarith
    linarith

/-- **C42.** The kernel of the code is the cubic spline kernel `W(r,h)`, up to the rounding of its coefficients to
12 decimal places. -/
theorem C42_kernel (h r : ℝ) (hh : 0 < h) (h0 : 0 ≤ r) (h1 : r ≤ h) :
    |sphKernel Real.sqrt h (r ^ 2) - cubicSpline h r| ≤ 1 / 10 ^ 12 / h ^ 3 := by
  obtain ⟨u, hu⟩ : ∃ u, u = r / h := ⟨_, rfl⟩
  obtain ⟨w, hw⟩ : ∃ w, w = 8 / Real.pi := ⟨_, rfl⟩
  have hu0 : 0 ≤ u := hu ▸ div_nonneg h0 hh.le
  have hu1 : u ≤ 1 := hu ▸ (div_le_one hh).2 h1
  have hb := pi_inv_bounds
  rw [← hw, abs_le] at hb
  obtain ⟨b1, b2⟩ := hb
  have hc3 : 0 < h ^ 3 := by positivity
  have e8 : 8 / (Real.pi * h ^ 3) = w * (1 / h ^ 3) := by rw [hw]; field_simp
  have eh : h * h * h = h ^ 3 := by ring
  simp only [sphKernel, cubicSpline, Real.sqrt_sq h0, ← hu, e8, eh]
  have key : ∀ a : ℝ, |a| ≤ 1 / 10 ^ 12 → |1 / h ^ 3 * a| ≤ 1 / 10 ^ 12 / h ^ 3 := by
    intro a ha
    rw [abs_mul, abs_of_pos (by positivity : 0 < 1 / h ^ 3)]
    calc 1 / h ^ 3 * |a| ≤ 1 / h ^ 3 * (1 / 10 ^ 12) := mul_le_mul_of_nonneg_left ha (by positivity)
      _ = _ := by ring
  by_cases hlt : u < 1 / 2
  · rw [if_pos hlt, if_pos hlt]
    have : 1 / h ^ 3 * (2546479089470 / 1000000000000 + 15278874536822 / 1000000000000 * (u - 1) * u * u)
        - w * (1 / h ^ 3) * (1 - 6 * u ^ 2 + 6 * u ^ 3)
        = 1 / h ^ 3 * ((2546479089470 / 1000000000000 - w) * (1 - 6 * (u ^ 2 * (1 - u))) + 2 / 1000000000000 * (u ^ 2 * (u - 1))) := by ring
    rw [this]
    apply key
    have q0 : 0 ≤ u ^ 2 * (1 - u) := mul_nonneg (by positivity) (by linarith)
    have q1 : u ^ 2 * (1 - u) ≤ 1 / 8 := by nlinarith [mul_nonneg hu0 (by linarith : (0:ℝ) ≤ 1 / 2 - u), mul_nonneg (mul_nonneg hu0 hu0) (by linarith : (0:ℝ) ≤ 1 / 2 - u)]
    have q2 : u ^ 2 * (u - 1) = -(u ^ 2 * (1 - u)) := by ring
    rw [q2, abs_le]
    obtain ⟨q, hq⟩ : ∃ q, q = u ^ 2 * (1 - u) := ⟨_, rfl⟩
    rw [← hq] at q0 q1 ⊢
    norm_num at *
    constructor <;> nlinarith
  · rw [if_neg hlt, if_neg hlt]
    have : 1 / h ^ 3 * (5092958178941 / 1000000000000) * (1 - u) * (1 - u) * (1 - u) - w * (1 / h ^ 3) * (2 * (1 - u) ^ 3)
        = 1 / h ^ 3 * ((5092958178941 / 1000000000000 - 2 * w) * (1 - u) ^ 3) := by ring
    rw [this]
    apply key
    have q0 : 0 ≤ (1 - u) ^ 3 := pow_nonneg (by linarith) 3
    have q1 : (1 - u) ^ 3 ≤ 1 / 8 := by
      have : (1 - u) ^ 3 ≤ (1 / 2) ^ 3 := pow_le_pow_left₀ (by linarith) (by linarith [not_lt.1 hlt]) 3
      norm_num at this ⊢; linarith
    obtain ⟨q, hq⟩ : ∃ q, q = (1 - u) ^ 3 := ⟨_, rfl⟩
    rw [← hq] at q0 q1 ⊢
    rw [abs_le]
    norm_num at *
    constructor <;> nlinarith

/-- **C42.** The kernel gives a positive weight to every particle closer than the smoothing length, and none to the
farthest of the neighbours, which defines the smoothing length. -/
theorem C42_kernel_support (h r : ℝ) (hh : 0 < h) (h0 : 0 ≤ r) :
    (r < h → 0 < sphKernel Real.sqrt h (r ^ 2)) ∧ sphKernel Real.sqrt h (h ^ 2) = 0 := by
  constructor
  · intro h1
    obtain ⟨u, hu⟩ : ∃ u, u = r / h := ⟨_, rfl⟩
    have hu0 : 0 ≤ u := hu ▸ div_nonneg h0 hh.le
    have hu1 : u < 1 := hu ▸ (div_lt_one hh).2 h1
    simp only [sphKernel, Real.sqrt_sq h0, ← hu]
    by_cases hlt : u < 1 / 2
    · rw [if_pos hlt]
      refine mul_pos (by positivity) ?_
      nlinarith [mul_nonneg hu0 hu0, mul_nonneg hu0 (by linarith : (0:ℝ) ≤ 1 / 2 - u), mul_nonneg (mul_nonneg hu0 hu0) hu0]
    · rw [if_neg hlt]
      have : 0 < 1 - u := by linarith
      positivity
  · have hne : h ≠ 0 := hh.ne'
    simp only [sphKernel, Real.sqrt_sq hh.le, div_self hne]
    norm_num

theorem abs_sum_sub_le {A : Type} (l : List A) (f g : A → ℝ) (e : ℝ) (h : ∀ a ∈ l, |f a - g a| ≤ e) :
    |(l.map f).sum - (l.map g).sum| ≤ l.length * e := by
  induction l with
  | nil => simp
  | cons a l ih =>
    have h1 := h a (by simp)
    have h2 := ih (fun b hb => h b (by simp [hb]))
    simp only [List.map_cons, List.sum_cons, List.length_cons]
    push_cast
    calc |f a + (l.map f).sum - (g a + (l.map g).sum)| = |(f a - g a) + ((l.map f).sum - (l.map g).sum)| := by congr 1; ring
      _ ≤ |f a - g a| + |(l.map f).sum - (l.map g).sum| := abs_add_le _ _
      _ ≤ (l.length + 1) * e := by linarith

/-- **C42.** The density `SphDensity` returns is the sum of the cubic spline kernel over the `k` nearest particles, with
the distance of the farthest of them as smoothing length, up to the rounding of the coefficients. -/
theorem C42_density_kernel (periodic : Bool) (L : ℝ) (pts : List (Fin 3 → ℝ)) (N : Nat) (x : Nat → Fin 3 → ℝ) (t : Tree ℝ Int)
    (h : GeoTreeOf periodic L pts N x t) (c : Fin 3 → ℝ) (hc : periodic = true → InBox L c)
    (growth : Nat → Nat → ℝ) (nth : Nat → List (Nat × ℝ) → List (Nat × ℝ)) (hn : NthElement nth) (k : Nat)
    (hg : ∀ n, 0 < n → n < k → 0 ≤ growth k n) (fuel : Nat) (hguess : ℝ) (h0 : 0 ≤ hguess) (rho hnew : ℝ)
    (hok : sphDensity periodic L pts N t Real.sqrt growth nth k fuel c hguess = .ok (rho, hnew)) :
    ∃ (best : List (Nat × ℝ)) (hsml : ℝ), best.length = k ∧ best.Nodup ∧ (∀ f ∈ best, Located periodic L N x c f) ∧
      (∃ far ∈ best, hsml = Real.sqrt far.2) ∧ (∀ f ∈ best, Real.sqrt f.2 ≤ hsml) ∧
      (∀ f, Located periodic L N x c f → f ∉ best → hsml ≤ Real.sqrt f.2) ∧ 0 < hsml ∧ hnew = hsml * (101 / 100) ∧
      |rho - (best.map (fun f => cubicSpline hsml (Real.sqrt f.2))).sum| ≤ k * (1 / 10 ^ 12 / hsml ^ 3) := by
  have hpos : hnew ≠ 0 := by
    intro hz
    unfold sphDensity at hok
    obtain ⟨r1, e1, hok⟩ := bind_eq_ok hok
    obtain ⟨r2, e2, hok⟩ := bind_eq_ok hok
    by_cases hk : k = 0
    · rw [if_pos hk] at hok; cases hok
    rw [if_neg hk] at hok
    obtain ⟨r3, e3, hok⟩ := bind_eq_ok hok
    by_cases hs : Real.sqrt r3.2 = 0
    · simp only [if_pos hs] at hok; cases hok
    simp only [if_neg hs] at hok
    cases hok
    rcases mul_eq_zero.1 hz with h | h
    · exact hs h
    · norm_num at h
  obtain ⟨best, far, b1, b2, b3, b4, b5, b6, b7, b8⟩ :=
    C42_density periodic L pts N x t h c hc Real.sqrt growth nth hn k hg fuel hguess h0 rho hnew hok
  have hs : 0 < Real.sqrt far.2 := by
    rcases (Real.sqrt_nonneg far.2).lt_or_eq with h | h
    · exact h
    · exact absurd (by rw [b7, ← h, zero_mul]) hpos
  refine ⟨best, Real.sqrt far.2, b1, b2, b3, ⟨far, b4, rfl⟩, fun f hf => Real.sqrt_le_sqrt (b5 f hf),
    fun f hf hnot => Real.sqrt_le_sqrt (b6 f hf hnot), hs, b7, ?_⟩
  rw [b8, ← b1]
  refine abs_sum_sub_le best _ _ _ fun f hf => ?_
  have hnn : 0 ≤ f.2 := by
    have hs := (b3 f hf).2
    have hq : ∀ a b : Fin 3 → ℝ, 0 ≤ sqDist a b := fun a b => by unfold sqDist; positivity
    unfold Separation at hs
    split at hs
    · obtain ⟨⟨j, hj⟩, _⟩ := hs
      rw [hj]; exact hq _ _
    · rw [hs]; exact hq _ _
  have := C42_kernel (Real.sqrt far.2) (Real.sqrt f.2) hs (Real.sqrt_nonneg _) (Real.sqrt_le_sqrt (b5 f hf))
  rwa [Real.sq_sqrt hnn] at this

/-- The kernel at a quarter of the smoothing length 2: `W = 8/(8π)·(1 − 6/16 + 6/64)`. -/
example : |sphKernel Real.sqrt 2 ((1/2 : ℝ) ^ 2) - cubicSpline 2 (1/2)| ≤ 1 / 10 ^ 12 / 2 ^ 3 :=
  C42_kernel 2 (1/2) (by norm_num) (by norm_num) (by norm_num)

end HBT.Props
