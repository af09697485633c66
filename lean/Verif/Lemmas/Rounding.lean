import Verif.Spec.Rounding
import Mathlib.Algebra.Order.Round
import Mathlib.Data.Int.Log
import Mathlib.Data.Rat.Floor
import Mathlib.Tactic.Linarith
import Mathlib.Tactic.FieldSimp
import Mathlib.Tactic.Positivity
import Mathlib.Tactic.NormNum
/-!
# Rounding: what follows from `RoundsToNearest`, and that such a function exists
-/
namespace HBT
open HBT.Spec
variable {p : Nat} {fl : ℚ → ℚ}

theorem Spec.Rep.scale {x : ℚ} (h : Rep p x) (k : Int) : Rep p (x * (2 : ℚ) ^ k) := by
  obtain ⟨m, e, hm, rfl⟩ := h
  exact ⟨m, e + k, hm, by rw [zpow_add₀ (by norm_num : (2 : ℚ) ≠ 0)]; ring⟩

theorem Spec.Rep.neg {x : ℚ} (h : Rep p x) : Rep p (-x) := by
  obtain ⟨m, e, hm, rfl⟩ := h
  exact ⟨-m, e, by rwa [abs_neg], by push_cast; ring⟩

theorem Spec.Rep.zero : Rep p 0 := ⟨0, 0, by simp, by simp⟩

/-- Whole numbers up to `2^p` are in the format. -/
theorem Spec.Rep.int (hp : 1 ≤ p) {m : Int} (h : |m| ≤ 2 ^ p) : Rep p (m : ℚ) := by
  rcases lt_or_eq_of_le h with h | h
  · exact ⟨m, 0, h, by simp⟩
  · have h1 : (1 : Int) < 2 ^ p := one_lt_pow₀ (by norm_num) (by omega)
    rcases abs_eq (by positivity : (0 : Int) ≤ 2 ^ p) |>.1 h with h | h
    · refine ⟨1, p, by simpa using h1, ?_⟩
      rw [h]; push_cast; rw [zpow_natCast]; ring
    · refine ⟨-1, p, by simpa using h1, ?_⟩
      rw [h]; push_cast; rw [zpow_natCast]; ring

theorem Spec.Rep.nat (hp : 1 ≤ p) {n : Nat} (h : n ≤ 2 ^ p) : Rep p (n : ℚ) := by
  have := Rep.int hp (m := (n : Int)) (by rw [abs_of_nonneg (by positivity)]; exact_mod_cast h)
  simpa using this

theorem Spec.Rep.one (hp : 1 ≤ p) : Rep p 1 := by
  have := Rep.nat (p := p) hp (n := 1) Nat.one_le_two_pow
  simpa using this

namespace Spec.RoundsToNearest

theorem exact (h : RoundsToNearest p fl) {x : ℚ} (hx : Rep p x) : fl x = x := by
  have := (h x).2 x hx
  rw [sub_self, abs_zero] at this
  have := abs_nonpos_iff.1 this
  linarith

theorem idem (h : RoundsToNearest p fl) (x : ℚ) : fl (fl x) = fl x := h.exact (h x).1

theorem mono (h : RoundsToNearest p fl) {a b : ℚ} (hab : a ≤ b) : fl a ≤ fl b := by
  rcases eq_or_lt_of_le hab with rfl | hab
  · exact le_refl _
  · by_contra hlt
    have hlt := not_le.1 hlt
    have h1 := (h a).2 _ (h b).1
    have h2 := (h b).2 _ (h a).1
    rcases abs_cases (fl a - a) with ⟨e1, _⟩ | ⟨e1, _⟩ <;> rcases abs_cases (fl b - a) with ⟨e2, _⟩ | ⟨e2, _⟩ <;>
      rcases abs_cases (fl b - b) with ⟨e3, _⟩ | ⟨e3, _⟩ <;> rcases abs_cases (fl a - b) with ⟨e4, _⟩ | ⟨e4, _⟩ <;> linarith

theorem le_rep (h : RoundsToNearest p fl) {a b : ℚ} (hb : Rep p b) (hab : a ≤ b) : fl a ≤ b := by
  rw [← h.exact hb]; exact h.mono hab

theorem rep_le (h : RoundsToNearest p fl) {a b : ℚ} (ha : Rep p a) (hab : a ≤ b) : a ≤ fl b := by
  rw [← h.exact ha]; exact h.mono hab

theorem zero (h : RoundsToNearest p fl) : fl 0 = 0 := h.exact Rep.zero

end Spec.RoundsToNearest

/-! ## A rounding function -/

/-- The unit in the last place of `x`. -/
def ulp (p : Nat) (x : ℚ) : ℚ := (2 : ℚ) ^ (Int.log 2 |x| - ((p : Int) - 1))

/-- Round to nearest. -/
def roundTo (p : Nat) (x : ℚ) : ℚ := round (x / ulp p x) * ulp p x

theorem ulp_pos (x : ℚ) : 0 < ulp p x := by unfold ulp; positivity

theorem log_bounds {x : ℚ} (hx : x ≠ 0) : (2 : ℚ) ^ (Int.log 2 |x|) ≤ |x| ∧ |x| < (2 : ℚ) ^ (Int.log 2 |x| + 1) := by
  have h := abs_pos.2 hx
  have h1 := Int.zpow_log_le_self (b := 2) (r := |x|) (by norm_num) h
  have h2 := Int.lt_zpow_succ_log_self (b := 2) (by norm_num) |x|
  exact ⟨by exact_mod_cast h1, by exact_mod_cast h2⟩

theorem roundTo_rep (hp : 1 ≤ p) (x : ℚ) : Rep p (roundTo p x) := by
  unfold roundTo
  by_cases hx : x = 0
  · subst hx; simpa using Rep.zero
  · have hb := (log_bounds hx).2
    have hs : ulp p x * 2 ^ p = (2 : ℚ) ^ (Int.log 2 |x| + 1) := by
      unfold ulp
      rw [← zpow_natCast, ← zpow_add₀ (by norm_num : (2 : ℚ) ≠ 0)]
      congr 1; omega
    have hq : |x / ulp p x| ≤ 2 ^ p := by
      rw [abs_div, abs_of_pos (ulp_pos (p := p) x), div_le_iff₀ (ulp_pos x)]
      linarith
    have hr : |round (x / ulp p x)| ≤ 2 ^ p := by
      obtain ⟨h1, h2⟩ := abs_le.1 hq
      rw [abs_le]
      have h3 : round ((-(2 ^ p : Int) : Int) : ℚ) ≤ round (x / ulp p x) := by
        rw [round_eq, round_eq]
        apply Int.floor_mono
        push_cast
        linarith
      have h4 : round (x / ulp p x) ≤ round (((2 ^ p : Int) : Int) : ℚ) := by
        rw [round_eq, round_eq]
        apply Int.floor_mono
        push_cast
        linarith
      rw [round_intCast] at h3 h4
      exact ⟨h3, h4⟩
    exact (Rep.int hp hr).scale _

theorem roundTo_nearest (hp : 1 ≤ p) : RoundsToNearest p (roundTo p) := by
  intro x
  refine ⟨roundTo_rep hp x, fun y hy => ?_⟩
  by_cases hx : x = 0
  · subst hx; simp [roundTo]
  have hu := ulp_pos (p := p) x
  -- multiples of the unit
  have hmul : ∀ k : Int, |roundTo p x - x| ≤ |k * ulp p x - x| := by
    intro k
    have h := round_le (x / ulp p x) k
    have e1 : roundTo p x - x = -((x / ulp p x - round (x / ulp p x)) * ulp p x) := by
      unfold roundTo; field_simp; ring
    have e2 : k * ulp p x - x = -((x / ulp p x - k) * ulp p x) := by field_simp; ring
    rw [e1, e2, abs_neg, abs_neg, abs_mul, abs_mul]
    exact mul_le_mul_of_nonneg_right h (abs_nonneg _)
  obtain ⟨m, e, hm, rfl⟩ := hy
  by_cases he : Int.log 2 |x| - ((p : Int) - 1) ≤ e
  · obtain ⟨d, hd⟩ := Int.eq_ofNat_of_zero_le (sub_nonneg.2 he)
    have : (m : ℚ) * 2 ^ e = ((m * 2 ^ d : Int) : ℚ) * ulp p x := by
      unfold ulp
      push_cast
      rw [mul_assoc, ← zpow_natCast, ← zpow_add₀ (by norm_num : (2 : ℚ) ≠ 0)]
      congr 2; omega
    rw [this]
    exact hmul _
  · have he := not_le.1 he
    have hlog := (log_bounds hx).1
    -- |y| is below the power of two under |x|
    have hy : |(m : ℚ) * 2 ^ e| ≤ (2 : ℚ) ^ (Int.log 2 |x|) := by
      rw [abs_mul, abs_of_pos (by positivity : (0 : ℚ) < 2 ^ e)]
      have h1 : |(m : ℚ)| ≤ (2 : ℚ) ^ (p : Int) := by
        rw [zpow_natCast]; have := hm.le; exact_mod_cast this
      calc |(m : ℚ)| * 2 ^ e ≤ (2 : ℚ) ^ (p : Int) * 2 ^ e := mul_le_mul_of_nonneg_right h1 (by positivity)
        _ = (2 : ℚ) ^ ((p : Int) + e) := by rw [zpow_add₀ (by norm_num : (2 : ℚ) ≠ 0)]
        _ ≤ (2 : ℚ) ^ (Int.log 2 |x|) := zpow_le_zpow_right₀ (by norm_num) (by omega)
    have hpow : ((2 ^ (p - 1) : Int) : ℚ) * ulp p x = (2 : ℚ) ^ (Int.log 2 |x|) := by
      unfold ulp
      push_cast
      rw [← zpow_natCast, ← zpow_add₀ (by norm_num : (2 : ℚ) ≠ 0)]
      congr 1; omega
    obtain ⟨hy1, hy2⟩ := abs_le.1 hy
    rcases lt_or_gt_of_ne hx with hneg | hpos
    · refine (hmul (-(2 ^ (p - 1)))).trans ?_
      rw [Int.cast_neg, neg_mul, hpow]
      rw [abs_of_neg hneg] at hlog hy1 ⊢
      rw [abs_of_nonneg (by linarith), abs_of_nonneg (by linarith)]
      linarith
    · refine (hmul (2 ^ (p - 1))).trans ?_
      rw [hpow]
      rw [abs_of_pos hpos] at hlog hy2 ⊢
      rw [abs_of_nonpos (by linarith), abs_of_nonpos (by linarith)]
      linarith

/-- The error of rounding is at most `2^-p` of the number. -/
theorem Spec.RoundsToNearest.error (hp : 1 ≤ p) (h : RoundsToNearest p fl) (x : ℚ) : |fl x - x| ≤ |x| * (2 : ℚ) ^ (-(p : Int)) := by
  by_cases hx : x = 0
  · subst hx; rw [h.zero]; simp
  · refine ((h x).2 _ (roundTo_rep hp x)).trans ?_
    have hu := ulp_pos (p := p) x
    have e1 : roundTo p x - x = -((x / ulp p x - round (x / ulp p x)) * ulp p x) := by
      unfold roundTo; field_simp; ring
    rw [e1, abs_neg, abs_mul, abs_of_pos hu]
    have h1 := abs_sub_round (x / ulp p x)
    have h2 : 1 / 2 * ulp p x = (2 : ℚ) ^ (Int.log 2 |x|) * (2 : ℚ) ^ (-(p : Int)) := by
      unfold ulp
      rw [← zpow_add₀ (by norm_num : (2 : ℚ) ≠ 0), one_div, ← zpow_neg_one, ← zpow_add₀ (by norm_num : (2 : ℚ) ≠ 0)]
      congr 1; omega
    calc _ ≤ 1 / 2 * ulp p x := mul_le_mul_of_nonneg_right h1 hu.le
      _ = _ := h2
      _ ≤ _ := mul_le_mul_of_nonneg_right (log_bounds hx).1 (by positivity)

end HBT
