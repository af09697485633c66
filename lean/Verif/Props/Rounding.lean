import Verif.Lemmas.Rounding
import Verif.Model.Rounded
import Verif.Spec.Unbind
import Verif.Model.MyMath
import Verif.Model.Mpi
import Verif.Model.Unbind
/-!
# C75: what rounding can and cannot spoil

The functions of `Model/Rounded.lean` decide about positions, indices and numbers of particles by floating point arithmetic. `fl` is
any rounding to nearest with `p` digits (`Spec/Rounding.lean`).
-/
namespace HBT.Props
open HBT HBT.Spec HBT.Model
variable {p : Nat} {fl : ℚ → ℚ}

/-- Sterbenz: the difference of two numbers within a factor of two of each other is in the format. -/
theorem rep_sub {a b : ℚ} (ha : Rep p a) (hb : Rep p b) (h1 : b / 2 ≤ a) (h2 : a ≤ 2 * b) : Rep p (a - b) := by
  obtain ⟨m, e, hm, rfl⟩ := ha
  obtain ⟨n, f, hn, rfl⟩ := hb
  have h2e : (0 : ℚ) < 2 ^ e := by positivity
  have h2f : (0 : ℚ) < 2 ^ f := by positivity
  set a := (m : ℚ) * 2 ^ e with hae
  set b := (n : ℚ) * 2 ^ f with hbe
  have ha0 : 0 ≤ a := by linarith
  have hb0 : 0 ≤ b := by linarith
  have hda : |a - b| ≤ a := by rw [abs_le]; constructor <;> linarith
  have hdb : |a - b| ≤ b := by rw [abs_le]; constructor <;> linarith
  rcases le_total e f with hef | hef
  · obtain ⟨d, hd⟩ := Int.eq_ofNat_of_zero_le (sub_nonneg.2 hef)
    have e1 : a - b = ((m - n * 2 ^ d : Int) : ℚ) * 2 ^ e := by
      have : (2 : ℚ) ^ f = 2 ^ d * 2 ^ e := by
        rw [← zpow_natCast, ← zpow_add₀ (by norm_num : (2 : ℚ) ≠ 0)]; congr 1; omega
      rw [hae, hbe, this]; push_cast; ring
    refine ⟨_, e, ?_, e1⟩
    rw [e1, abs_mul, abs_of_pos h2e, hae] at hda
    have h3 := le_of_mul_le_mul_right hda h2e
    have h4 : |m - n * 2 ^ d| ≤ m := by exact_mod_cast h3
    exact lt_of_le_of_lt (h4.trans (le_abs_self m)) hm
  · obtain ⟨d, hd⟩ := Int.eq_ofNat_of_zero_le (sub_nonneg.2 hef)
    have e1 : a - b = ((m * 2 ^ d - n : Int) : ℚ) * 2 ^ f := by
      have : (2 : ℚ) ^ e = 2 ^ d * 2 ^ f := by
        rw [← zpow_natCast, ← zpow_add₀ (by norm_num : (2 : ℚ) ≠ 0)]; congr 1; omega
      rw [hae, hbe, this]; push_cast; ring
    refine ⟨_, f, ?_, e1⟩
    rw [e1, abs_mul, abs_of_pos h2f, hbe] at hdb
    have h3 := le_of_mul_le_mul_right hdb h2f
    have h4 : |m * 2 ^ d - n| ≤ n := by exact_mod_cast h3
    exact lt_of_le_of_lt (h4.trans (le_abs_self n)) hn

/-- A number of the format below 1 is at most `1 - 2^-p`. -/
theorem rep_lt_one {y : ℚ} (hp : 1 ≤ p) (hy : Rep p y) (h : y < 1) : y ≤ 1 - (2 : ℚ) ^ (-(p : Int)) := by
  have hhalf : (2 : ℚ) ^ (-(p : Int)) ≤ 1 / 2 := by
    have : (2 : ℚ) ^ (-(p : Int)) ≤ 2 ^ (-1 : Int) := zpow_le_zpow_right₀ (by norm_num) (by omega)
    simpa using this
  by_cases hs : y ≤ 1 / 2
  · linarith
  · have hs := not_le.1 hs
    obtain ⟨m, e, hm, rfl⟩ := hy
    have h2e : (0 : ℚ) < 2 ^ e := by positivity
    have he : -(p : Int) ≤ e := by
      by_contra hc
      have hc : e ≤ -(p : Int) - 1 := by omega
      have h1 : (2 : ℚ) ^ e ≤ 2 ^ (-(p : Int) - 1) := zpow_le_zpow_right₀ (by norm_num) hc
      have h2 : (m : ℚ) ≤ 2 ^ (p : Int) := by
        rw [zpow_natCast]
        have := ((le_abs_self m).trans_lt hm).le
        exact_mod_cast this
      have h3 : (m : ℚ) * 2 ^ e ≤ 2 ^ (p : Int) * 2 ^ (-(p : Int) - 1) :=
        mul_le_mul h2 h1 h2e.le (by positivity)
      rw [← zpow_add₀ (by norm_num : (2 : ℚ) ≠ 0)] at h3
      have h4 : (p : Int) + (-(p : Int) - 1) = -1 := by omega
      rw [h4] at h3
      norm_num at h3
      linarith
    obtain ⟨d, hd⟩ := Int.eq_ofNat_of_zero_le (sub_nonneg.2 he)
    have e1 : (m : ℚ) * 2 ^ e = ((m * 2 ^ d : Int) : ℚ) * 2 ^ (-(p : Int)) := by
      have : (2 : ℚ) ^ e = 2 ^ d * 2 ^ (-(p : Int)) := by
        rw [← zpow_natCast, ← zpow_add₀ (by norm_num : (2 : ℚ) ≠ 0)]; congr 1; omega
      rw [this]; push_cast; ring
    have e2 : (1 : ℚ) = ((2 ^ p : Int) : ℚ) * 2 ^ (-(p : Int)) := by
      push_cast; rw [zpow_neg, zpow_natCast]; field_simp
    have hpos : (0 : ℚ) < 2 ^ (-(p : Int)) := by positivity
    rw [e1, e2] at h
    have h5 : (m * 2 ^ d : Int) < 2 ^ p := by exact_mod_cast lt_of_mul_lt_mul_right h hpos.le
    have h6 : ((m * 2 ^ d : Int) : ℚ) ≤ ((2 ^ p - 1 : Int) : ℚ) := by exact_mod_cast (by omega : m * 2 ^ d ≤ 2 ^ p - 1)
    rw [e1]
    calc _ ≤ ((2 ^ p - 1 : Int) : ℚ) * 2 ^ (-(p : Int)) := mul_le_mul_of_nonneg_right h6 hpos.le
      _ = ((2 ^ p : Int) : ℚ) * 2 ^ (-(p : Int)) - 2 ^ (-(p : Int)) := by push_cast; ring
      _ = _ := by rw [← e2]

/-- C75, wrapping: the wrapped position is in the closed box, it is within the accuracy of the format of an image of the position,
and it is not the upper edge if the position was not negative. -/
theorem C75_wrap (hp : 1 ≤ p) (hfl : RoundsToNearest p fl) {x L : ℚ} (hL : Rep p L) (h0 : 0 < L) :
    0 ≤ positionModulusF fl x L ∧ positionModulusF fl x L ≤ L ∧
      (∃ k : Int, |positionModulusF fl x L - (x - k * L)| ≤ (|x| + 2 * L) * (2 : ℚ) ^ (-(p : Int))) := by
  unfold positionModulusF
  have he : (0 : ℚ) < 2 ^ (-(p : Int)) := by positivity
  split
  · rename_i h
    refine ⟨h.1, h.2.le, 0, ?_⟩
    simp only [Int.cast_zero, zero_mul, sub_zero, sub_self, abs_zero]
    have := abs_nonneg x
    positivity
  · simp only
    set y := fl (x / L) with hy
    have hd0 : 0 ≤ y - ⌊y⌋ := sub_nonneg.2 (Int.floor_le y)
    have hd1 : y - ⌊y⌋ ≤ 1 := by linarith [Int.lt_floor_add_one y]
    set d := y - ⌊y⌋ with hd
    have hz0 : 0 ≤ fl d := hfl.rep_le Rep.zero hd0
    have hz1 : fl d ≤ 1 := hfl.le_rep (Rep.one hp) hd1
    set z := fl d with hz
    have hr0 : 0 ≤ fl (z * L) := hfl.rep_le Rep.zero (mul_nonneg hz0 h0.le)
    have hr1 : fl (z * L) ≤ L := hfl.le_rep hL (by nlinarith)
    refine ⟨hr0, hr1, ⌊y⌋, ?_⟩
    have e1 := hfl.error hp (z * L)
    have e2 := hfl.error hp d
    have e3 := hfl.error hp (x / L)
    rw [← hy] at e3
    rw [← hz] at e2
    have b1 : |fl (z * L) - z * L| ≤ L * 2 ^ (-(p : Int)) := by
      refine e1.trans (mul_le_mul_of_nonneg_right ?_ he.le)
      rw [abs_of_nonneg (mul_nonneg hz0 h0.le)]; nlinarith
    have b2 : |(z - d) * L| ≤ L * 2 ^ (-(p : Int)) := by
      rw [abs_mul, abs_of_pos h0, mul_comm]
      refine mul_le_mul_of_nonneg_left (e2.trans ?_) h0.le
      rw [abs_of_nonneg hd0]
      nlinarith
    have b3 : |(y - x / L) * L| ≤ |x| * 2 ^ (-(p : Int)) := by
      rw [abs_mul, abs_of_pos h0]
      have := mul_le_mul_of_nonneg_right e3 h0.le
      rw [abs_div, abs_of_pos h0] at this
      calc _ ≤ _ := this
        _ = _ := by field_simp
    have e : fl (z * L) - (x - ⌊y⌋ * L) = (fl (z * L) - z * L) + (z - d) * L + (y - x / L) * L := by
      rw [hd]; field_simp; ring
    rw [e]
    calc _ ≤ |fl (z * L) - z * L| + |(z - d) * L| + |(y - x / L) * L| :=
          (abs_add_le _ _).trans (add_le_add (abs_add_le _ _) le_rfl)
      _ ≤ L * 2 ^ (-(p : Int)) + L * 2 ^ (-(p : Int)) + |x| * 2 ^ (-(p : Int)) := by linarith
      _ = _ := by ring

/-- A positive number of the format, written with a mantissa of `p` digits. -/
theorem rep_normal {L : ℚ} (hp : 1 ≤ p) (hL : Rep p L) (h0 : 0 < L) :
    ∃ m e : Int, (2 : Int) ^ (p - 1) ≤ m ∧ m < 2 ^ p ∧ L = m * (2 : ℚ) ^ e := by
  obtain ⟨m, e, hm, rfl⟩ := hL
  have h2e : (0 : ℚ) < 2 ^ e := by positivity
  have hm0 : 0 < m := by
    have : (0 : ℚ) < m := by by_contra hc; nlinarith [not_lt.1 hc]
    exact_mod_cast this
  rw [abs_of_pos hm0] at hm
  have key : ∀ k : Nat, ∀ m e : Int, 0 < m → m < 2 ^ p → (2 : Int) ^ (p - 1) ≤ m * 2 ^ k →
      ∃ m' e' : Int, (2 : Int) ^ (p - 1) ≤ m' ∧ m' < 2 ^ p ∧ (m : ℚ) * 2 ^ e = m' * (2 : ℚ) ^ e' := by
    intro k
    induction k with
    | zero => intro m e _ h2 h3; exact ⟨m, e, by simpa using h3, h2, rfl⟩
    | succ k ih =>
      intro m e h1 h2 h3
      by_cases hc : (2 : Int) ^ (p - 1) ≤ m
      · exact ⟨m, e, hc, h2, rfl⟩
      · have hpp : (2 : Int) ^ p = 2 * 2 ^ (p - 1) := by
          rw [← pow_succ']; congr 1; omega
        obtain ⟨m', e', a, b, c⟩ := ih (2 * m) (e - 1) (by omega) (by omega) (by rw [pow_succ] at h3; linarith)
        refine ⟨m', e', a, b, ?_⟩
        rw [← c, zpow_sub_one₀ (by norm_num : (2 : ℚ) ≠ 0)]
        push_cast; ring
  refine key (p - 1) m e hm0 hm ?_
  have : (0 : Int) < 2 ^ (p - 1) := by positivity
  nlinarith

/-- C75, wrapping: a position that is not negative is never wrapped to the upper edge of the box. -/
theorem C75_wrap_nonneg (hp : 1 ≤ p) (hfl : RoundsToNearest p fl) {x L : ℚ} (hL : Rep p L) (h0 : 0 < L) (hx : 0 ≤ x) :
    positionModulusF fl x L < L := by
  unfold positionModulusF
  split
  · rename_i h; exact h.2
  · rename_i h
    have hxL : L ≤ x := by by_contra hc; exact h ⟨hx, not_le.1 hc⟩
    simp only
    have hy1 : 1 ≤ fl (x / L) := hfl.rep_le (Rep.one hp) (by rw [le_div_iff₀ h0]; linarith)
    have hyr : Rep p (fl (x / L)) := (hfl _).1
    set y := fl (x / L) with hy
    -- the fraction of `y` is a multiple of `2^(1-p)`
    have hf : y - ⌊y⌋ ≤ 1 - (2 : ℚ) ^ (1 - (p : Int)) := by
      obtain ⟨m, e, hm1, hm2, hme⟩ := rep_normal hp hyr (by linarith)
      have he : 1 - (p : Int) ≤ e := by
        by_contra hc
        have hc : e ≤ -(p : Int) := by omega
        have h1 : (2 : ℚ) ^ e ≤ 2 ^ (-(p : Int)) := zpow_le_zpow_right₀ (by norm_num) hc
        have h2 : (m : ℚ) < 2 ^ (p : Int) := by rw [zpow_natCast]; exact_mod_cast hm2
        have h3 : (m : ℚ) * 2 ^ e < 2 ^ (p : Int) * 2 ^ (-(p : Int)) :=
          mul_lt_mul h2 h1 (by positivity) (by positivity)
        rw [← zpow_add₀ (by norm_num : (2 : ℚ) ≠ 0)] at h3
        simp at h3
        linarith
      obtain ⟨d, hd⟩ := Int.eq_ofNat_of_zero_le (sub_nonneg.2 he)
      obtain ⟨q, hq⟩ : ∃ q : Nat, p = q + 1 := ⟨p - 1, by omega⟩
      have e1 : (2 : ℚ) ^ (1 - (p : Int)) * 2 ^ q = 1 := by
        rw [← zpow_natCast, ← zpow_add₀ (by norm_num : (2 : ℚ) ≠ 0)]
        have : 1 - (p : Int) + q = 0 := by omega
        rw [this]; simp
      have e2 : (2 : ℚ) ^ e = 2 ^ d * 2 ^ (1 - (p : Int)) := by
        rw [← zpow_natCast, ← zpow_add₀ (by norm_num : (2 : ℚ) ≠ 0)]; congr 1; omega
      have hpos : (0 : ℚ) < 2 ^ (1 - (p : Int)) := by positivity
      have e3 : y - ⌊y⌋ = ((m * 2 ^ d - ⌊y⌋ * 2 ^ q : Int) : ℚ) * 2 ^ (1 - (p : Int)) := by
        have : (⌊y⌋ : ℚ) = ⌊y⌋ * (2 ^ (1 - (p : Int)) * 2 ^ q) := by rw [e1, mul_one]
        have hy' : y = m * (2 ^ d * 2 ^ (1 - (p : Int))) := by rw [← e2]; exact hme
        push_cast
        calc y - (⌊y⌋ : ℚ) = m * (2 ^ d * 2 ^ (1 - (p : Int))) - ⌊y⌋ * (2 ^ (1 - (p : Int)) * 2 ^ q) := by rw [← this, ← hy']
          _ = _ := by ring
      have hlt : y - ⌊y⌋ < 1 := by linarith [Int.lt_floor_add_one y]
      rw [e3] at hlt ⊢
      have h4 : (m * 2 ^ d - ⌊y⌋ * 2 ^ q : Int) < 2 ^ q := by
        have : ((m * 2 ^ d - ⌊y⌋ * 2 ^ q : Int) : ℚ) * 2 ^ (1 - (p : Int)) < 2 ^ q * 2 ^ (1 - (p : Int)) := by
          rw [mul_comm ((2 : ℚ) ^ q), e1]; exact hlt
        exact_mod_cast lt_of_mul_lt_mul_right this hpos.le
      have h5 : ((m * 2 ^ d - ⌊y⌋ * 2 ^ q : Int) : ℚ) ≤ ((2 ^ q - 1 : Int) : ℚ) := by
        exact_mod_cast (by omega : m * 2 ^ d - ⌊y⌋ * 2 ^ q ≤ 2 ^ q - 1)
      calc _ ≤ ((2 ^ q - 1 : Int) : ℚ) * 2 ^ (1 - (p : Int)) := mul_le_mul_of_nonneg_right h5 hpos.le
        _ = _ := by push_cast; rw [sub_mul, mul_comm, e1, one_mul]
    set d := y - ⌊y⌋ with hd
    have hd0 : 0 ≤ d := sub_nonneg.2 (Int.floor_le y)
    -- that number is in the format
    have hrep : Rep p (1 - (2 : ℚ) ^ (1 - (p : Int))) := by
      refine ⟨2 ^ (p - 1) - 1, 1 - p, ?_, ?_⟩
      · have h1 : (1 : Int) ≤ 2 ^ (p - 1) := one_le_pow₀ (by norm_num)
        have h2 : (2 : Int) ^ (p - 1) ≤ 2 ^ p := pow_le_pow_right₀ (by norm_num) (by omega)
        rw [abs_of_nonneg (by omega)]; omega
      · push_cast
        rw [sub_mul, one_mul, ← zpow_natCast, ← zpow_add₀ (by norm_num : (2 : ℚ) ≠ 0)]
        have : ((p - 1 : Nat) : Int) + (1 - (p : Int)) = 0 := by omega
        rw [this]; simp
    have hz : fl d ≤ 1 - (2 : ℚ) ^ (1 - (p : Int)) := hfl.le_rep hrep hf
    obtain ⟨m, e, hm1, hm2, hme⟩ := rep_normal hp hL h0
    have h2e : (0 : ℚ) < 2 ^ e := by positivity
    have hpred : Rep p ((m - 1 : Int) * (2 : ℚ) ^ e) := by
      have : (1 : Int) ≤ 2 ^ (p - 1) := one_le_pow₀ (by norm_num)
      exact ⟨m - 1, e, by rw [abs_of_nonneg (by omega)]; omega, rfl⟩
    refine lt_of_le_of_lt (hfl.le_rep hpred (b := (m - 1 : Int) * (2 : ℚ) ^ e) ?_) ?_
    · have h1 : (1 : ℚ) ≤ 2 ^ (1 - (p : Int)) * m := by
        have a1 : ((2 ^ (p - 1) : Int) : ℚ) ≤ m := by exact_mod_cast hm1
        have a2 : (2 : ℚ) ^ (1 - (p : Int)) * ((2 ^ (p - 1) : Int) : ℚ) = 1 := by
          push_cast
          rw [← zpow_natCast, ← zpow_add₀ (by norm_num : (2 : ℚ) ≠ 0)]
          have : 1 - (p : Int) + ((p - 1 : Nat) : Int) = 0 := by omega
          rw [this]; simp
        rw [← a2]
        exact mul_le_mul_of_nonneg_left a1 (by positivity)
      calc fl d * L ≤ (1 - (2 : ℚ) ^ (1 - (p : Int))) * L := mul_le_mul_of_nonneg_right hz h0.le
        _ = (m - 2 ^ (1 - (p : Int)) * m) * 2 ^ e := by rw [hme]; ring
        _ ≤ _ := by
          refine mul_le_mul_of_nonneg_right ?_ h2e.le
          push_cast; linarith
    · rw [hme]; push_cast; nlinarith

/-- C75, wrapping: in every format, a slightly negative position is wrapped to the upper edge of the box, which is outside of the
half-open interval that the comment of the function promises. -/
theorem C75_wrap_reaches_edge (hp : 1 ≤ p) (hfl : RoundsToNearest p fl) :
    positionModulusF fl (-(2 : ℚ) ^ (-(p : Int) - 2)) 1 = 1 := by
  have ht : (0 : ℚ) < 2 ^ (-(p : Int) - 2) := by positivity
  have ht2 : (2 : ℚ) ^ (-(p : Int) - 2) = 2 ^ (-(p : Int)) / 4 := by
    rw [zpow_sub₀ (by norm_num : (2 : ℚ) ≠ 0)]; norm_num
  have hle : (2 : ℚ) ^ (-(p : Int)) ≤ 1 := by
    have : (2 : ℚ) ^ (-(p : Int)) ≤ 2 ^ (0 : Int) := zpow_le_zpow_right₀ (by norm_num) (by omega)
    simpa using this
  have hP : (0 : ℚ) < 2 ^ (-(p : Int)) := by positivity
  have hrep : Rep p (-(2 : ℚ) ^ (-(p : Int) - 2)) := by
    have := ((Rep.one hp).scale (-(p : Int) - 2)).neg
    rwa [one_mul] at this
  unfold positionModulusF
  rw [if_neg (by rintro ⟨h, _⟩; linarith)]
  simp only
  rw [div_one, hfl.exact hrep]
  have hfloor : ⌊-(2 : ℚ) ^ (-(p : Int) - 2)⌋ = -1 := by
    rw [Int.floor_eq_iff]; push_cast; constructor <;> linarith
  rw [hfloor]
  have h1 : fl (-(2 : ℚ) ^ (-(p : Int) - 2) - ((-1 : Int) : ℚ)) = 1 := by
    set w := -(2 : ℚ) ^ (-(p : Int) - 2) - ((-1 : Int) : ℚ) with hw
    have hw' : w = 1 - 2 ^ (-(p : Int)) / 4 := by rw [hw, ht2]; push_cast; ring
    have hle1 : fl w ≤ 1 := hfl.le_rep (Rep.one hp) (by rw [hw']; linarith)
    by_contra hne
    have hlt := rep_lt_one hp (hfl w).1 (lt_of_le_of_ne hle1 hne)
    have hn := (hfl w).2 1 (Rep.one hp)
    have a1 : |1 - w| = 2 ^ (-(p : Int)) / 4 := by rw [hw', abs_of_nonneg] <;> linarith
    have a2 : 2 ^ (-(p : Int)) * (3 / 4) ≤ |fl w - w| := by
      rw [abs_sub_comm]
      refine le_trans ?_ (le_abs_self _)
      rw [hw'] at *; linarith
    rw [a1] at hn
    linarith
  rw [h1, mul_one]
  exact hfl.exact (Rep.one hp)

/-- C75, separations: for two positions in the box, the separation between periodic images is computed without any error. -/
theorem C75_nearest (hfl : RoundsToNearest p fl) {L x : ℚ} (hL : Rep p L) (hx : Rep p x) (hb : |x| ≤ L) :
    nearestF fl L x = nearest L x ∧ |nearestF fl L x| ≤ L / 2 := by
  have hh : fl (L / 2) = L / 2 := by
    refine hfl.exact ?_
    have := hL.scale (-1)
    simpa [div_eq_mul_inv] using this
  obtain ⟨h1, h2⟩ := abs_le.1 hb
  have e : nearestF fl L x = nearest L x := by
    unfold nearestF nearest
    simp only [hh]
    split
    · rename_i h
      exact hfl.exact (rep_sub hx hL (le_of_lt h) (by linarith))
    · split
      · rename_i h
        have := (rep_sub hx.neg hL (by linarith) (by linarith)).neg
        rw [show -(-x - L) = x + L by ring] at this
        exact hfl.exact this
      · rfl
  refine ⟨e, ?_⟩
  rw [e]
  unfold nearest
  simp only
  rw [abs_le]
  split
  · rename_i h; constructor <;> linarith
  · split
    · rename_i h h'; constructor <;> linarith
    · rename_i h h'; constructor <;> linarith [not_lt.1 h, not_lt.1 h']

/-- C75, separations: for two positions in the box the computed separation is at most half a box, and it differs from the difference
of the positions, up to whole boxes, by no more than the rounding of one subtraction. -/
theorem C75_separation (hp : 1 ≤ p) (hfl : RoundsToNearest p fl) {L x y : ℚ} (hL : Rep p L) (hx : 0 ≤ x ∧ x ≤ L) (hy : 0 ≤ y ∧ y ≤ L) :
    |nearestF fl L (fl (x - y))| ≤ L / 2 ∧
      ∃ k : Int, |nearestF fl L (fl (x - y)) - (x - y - k * L)| ≤ |x - y| * (2 : ℚ) ^ (-(p : Int)) := by
  have hb : |fl (x - y)| ≤ L := by
    rw [abs_le]
    exact ⟨hfl.rep_le hL.neg (by linarith), hfl.le_rep hL (by linarith)⟩
  obtain ⟨h1, h2⟩ := C75_nearest hfl hL (hfl (x - y)).1 hb
  refine ⟨h2, ?_⟩
  have he := hfl.error hp (x - y)
  rw [h1]
  unfold nearest
  simp only
  split
  · exact ⟨1, by push_cast; rwa [show fl (x - y) - L - (x - y - 1 * L) = fl (x - y) - (x - y) by ring]⟩
  · split
    · exact ⟨-1, by push_cast; rwa [show fl (x - y) + L - (x - y - -1 * L) = fl (x - y) - (x - y) by ring]⟩
    · exact ⟨0, by push_cast; rwa [show fl (x - y) - (x - y - 0 * L) = fl (x - y) - (x - y) by ring]⟩

/-- C75, cells: the cell of a position is in the grid, whatever the position, and it does not decrease when the position grows. -/
theorem C75_grid (hfl : RoundsToNearest p fl) {step : ℚ} {dim : Int} (hd : 0 < dim) (hs : 0 < step) (x : ℚ) :
    0 ≤ getGridF fl x step dim ∧ getGridF fl x step dim < dim ∧
      ∀ y, x ≤ y → getGridF fl x step dim ≤ getGridF fl y step dim := by
  unfold getGridF
  simp only
  refine ⟨by split_ifs <;> omega, by split_ifs <;> omega, fun y hxy => ?_⟩
  have : ⌊fl (x / step)⌋ ≤ ⌊fl (y / step)⌋ :=
    Int.floor_le_floor (hfl.mono (div_le_div_of_nonneg_right hxy hs.le))
  split_ifs <;> omega

/-- C75, passes: the number of passes of an exchange is the exact quotient, rounded up, as long as the number of particles is exact
in the format and the size of a pass is a power of two. -/
theorem C75_loops (hp : 1 ≤ p) (hfl : RoundsToNearest p fl) {sum k : Nat} (hs : sum ≤ 2 ^ p) (hk : k ≤ p) :
    numLoopsF fl sum (2 ^ k) = (ceilDiv sum (2 ^ k) : Int) := by
  unfold numLoopsF ceilDiv
  have hr : Rep p (sum : ℚ) := Rep.nat hp hs
  rw [one_mul, hfl.idem, hfl.exact hr, hfl.exact (Rep.nat hp (Nat.pow_le_pow_right (by norm_num) hk))]
  have h2 := hr.scale (-(k : Int))
  rw [zpow_neg, zpow_natCast, ← div_eq_mul_inv] at h2
  have hbc : ((2 ^ k : Nat) : ℚ) = (2 : ℚ) ^ k := by push_cast; rfl
  rw [hbc, hfl.exact h2, ← hbc, Int.ceil_eq_iff]
  have hpos : 0 < 2 ^ k := by positivity
  generalize 2 ^ k = b at hpos
  have hbq : (0 : ℚ) < (b : ℚ) := by exact_mod_cast hpos
  have hdm := Nat.div_add_mod (sum + b - 1) b
  have hml := Nat.mod_lt (sum + b - 1) hpos
  generalize (sum + b - 1) / b = q at hdm
  have g1 : b * q < sum + b := by omega
  have g2 : sum ≤ b * q := by omega
  have g1q : (b : ℚ) * q < sum + b := by exact_mod_cast g1
  have g2q : (sum : ℚ) ≤ b * q := by exact_mod_cast g2
  constructor
  · rw [lt_div_iff₀ hbq]; push_cast; linarith
  · rw [div_le_iff₀ hbq]; push_cast; linarith

/-- C75, the source: the particles that are kept are among those that there are, and all bound ones are kept, as long as their
number is exact in the format. -/
theorem C75_source (hp : 1 ≤ p) (hfl : RoundsToNearest p fl) {factor : ℚ} {nbound size : Nat} (hf : 1 ≤ factor)
    (hn : nbound ≤ 2 ^ p) (hs : nbound ≤ size) :
    nbound ≤ nsourceF fl factor nbound size ∧ nsourceF fl factor nbound size ≤ size := by
  have hr : Rep p (nbound : ℚ) := Rep.nat hp hn
  unfold nsourceF
  simp only
  refine ⟨?_, by split_ifs <;> omega⟩
  have key : nbound ≤ ⌊fl (fl nbound * factor)⌋.toNat := by
    rw [hfl.exact hr]
    have h1 : (nbound : ℚ) ≤ fl (nbound * factor) :=
      hfl.rep_le hr (by nlinarith [(Nat.cast_nonneg nbound : (0 : ℚ) ≤ nbound)])
    have h2 : ((nbound : Int)) ≤ ⌊fl (nbound * factor)⌋ := Int.le_floor.2 (by exact_mod_cast h1)
    omega
  split_ifs <;> omega

/-- C75, the source: the factor keeps all bound particles, whatever their number, if it exceeds 1 by four units of the last digit. -/
theorem C75_keeps (hp : 2 ≤ p) (hfl : RoundsToNearest p fl) {factor : ℚ} (hf : 1 + (2 : ℚ) ^ (2 - (p : Int)) ≤ factor) :
    Keeps fl factor := by
  intro nbound
  have hn0 : (0 : ℚ) ≤ nbound := Nat.cast_nonneg nbound
  set u := (2 : ℚ) ^ (-(p : Int)) with hu
  have hu0 : 0 < u := by rw [hu]; positivity
  have hu4 : (2 : ℚ) ^ (2 - (p : Int)) = 4 * u := by
    rw [hu, sub_eq_add_neg, zpow_add₀ (by norm_num : (2 : ℚ) ≠ 0)]; norm_num
  have hu1 : u ≤ 1 / 4 := by
    have : (2 : ℚ) ^ (-(p : Int)) ≤ 2 ^ (-2 : Int) := zpow_le_zpow_right₀ (by norm_num) (by omega)
    rw [← hu] at this; norm_num at this ⊢; linarith
  rw [hu4] at hf
  have e1 := (abs_le.1 (hfl.error (by omega) (nbound : ℚ))).1
  rw [← hu, abs_of_nonneg hn0] at e1
  have h1 : nbound * (1 - u) ≤ fl nbound := by linarith
  have hf0 : 0 ≤ fl nbound := le_trans (by nlinarith) h1
  have hpos : 0 ≤ fl nbound * factor := mul_nonneg hf0 (by linarith)
  have e2 := (abs_le.1 (hfl.error (by omega) (fl nbound * factor))).1
  rw [← hu, abs_of_nonneg hpos] at e2
  have h2 : fl nbound * factor * (1 - u) ≤ fl (fl nbound * factor) := by linarith
  refine le_trans ?_ h2
  have c1 : (1 : ℚ) ≤ (1 - u) * (1 + 4 * u) * (1 - u) := by
    have : 0 ≤ u * (2 - 7 * u + 4 * (u * u)) := mul_nonneg hu0.le (by nlinarith)
    linarith [this, (by ring : (1 - u) * (1 + 4 * u) * (1 - u) - 1 = u * (2 - 7 * u + 4 * (u * u)))]
  have c2 : (nbound : ℚ) * ((1 - u) * (1 + 4 * u) * (1 - u)) ≤ fl nbound * factor * (1 - u) := by
    have : (nbound : ℚ) * (1 - u) * (1 + 4 * u) ≤ fl nbound * factor :=
      mul_le_mul h1 hf (by linarith) hf0
    calc _ = (nbound : ℚ) * (1 - u) * (1 + 4 * u) * (1 - u) := by ring
      _ ≤ _ := mul_le_mul_of_nonneg_right this (by linarith)
  nlinarith

/-- C75, the source: whatever the number of bound particles, none is lost if the factor exceeds 1 by four units of the last digit. -/
theorem C75_source_large (hp : 2 ≤ p) (hfl : RoundsToNearest p fl) {factor : ℚ} {nbound size : Nat}
    (hf : 1 + (2 : ℚ) ^ (2 - (p : Int)) ≤ factor) (hs : nbound ≤ size) :
    nbound ≤ nsourceF fl factor nbound size := by
  unfold nsourceF
  simp only
  have key : nbound ≤ ⌊fl (fl nbound * factor)⌋.toNat := by
    have h3 := C75_keeps hp hfl hf nbound
    have h4 : ((nbound : Int)) ≤ ⌊fl (fl nbound * factor)⌋ := Int.le_floor.2 (by exact_mod_cast h3)
    omega
  split_ifs <;> omega

/-- C75, the source: with a factor of 1 a bound particle is lost, in every format, as soon as there are `2^(p+1) + 1` of them
(33554433 in single precision). -/
theorem C75_source_loses (hp : 1 ≤ p) (hfl : RoundsToNearest p fl) (size : Nat) (hs : 2 ^ (p + 1) + 1 ≤ size) :
    nsourceF fl 1 (2 ^ (p + 1) + 1) size = 2 ^ (p + 1) := by
  have hP : (2 : Int) ^ (p + 1) = 2 * 2 ^ p := by rw [pow_succ]; ring
  have hone : (1 : Int) ≤ 2 ^ p := one_le_pow₀ (by norm_num)
  have hrep : Rep p ((2 : ℚ) ^ (p + 1)) := by
    have := (Rep.one hp).scale (p + 1)
    rw [one_mul] at this
    exact_mod_cast this
  have key : fl (((2 ^ (p + 1) + 1 : Nat)) : ℚ) = 2 ^ (p + 1) := by
    push_cast
    set w : ℚ := 2 ^ (p + 1) + 1 with hw
    have h1 : (2 : ℚ) ^ (p + 1) ≤ fl w := hfl.rep_le hrep (by rw [hw]; linarith)
    by_contra hne
    have hgt : (2 : ℚ) ^ (p + 1) < fl w := lt_of_le_of_ne h1 (Ne.symm hne)
    have hn := (hfl w).2 _ hrep
    rw [hw, show (2 : ℚ) ^ (p + 1) - (2 ^ (p + 1) + 1) = -1 by ring, abs_neg, abs_one, ← hw] at hn
    -- the next number of the format is `2^(p+1) + 4`
    obtain ⟨m, e, hm, hme⟩ := (hfl w).1
    have he : 2 ≤ e := by
      by_contra hc
      have hc : e ≤ 1 := by omega
      have h2 : (2 : ℚ) ^ e ≤ 2 ^ (1 : Int) := zpow_le_zpow_right₀ (by norm_num) hc
      have h3 : (m : ℚ) ≤ 2 ^ p := by
        have := ((le_abs_self m).trans_lt hm).le
        exact_mod_cast this
      have : (m : ℚ) * 2 ^ e ≤ 2 ^ p * 2 ^ (1 : Int) := mul_le_mul h3 h2 (by positivity) (by positivity)
      rw [← hme] at this
      rw [pow_succ] at hgt
      norm_num at this
      linarith
    obtain ⟨d, hd⟩ := Int.eq_ofNat_of_zero_le (sub_nonneg.2 he)
    have e1 : fl w = ((m * 2 ^ d * 4 : Int) : ℚ) := by
      rw [hme]
      have : (2 : ℚ) ^ e = 2 ^ d * 4 := by
        rw [show (4 : ℚ) = 2 ^ (2 : Int) by norm_num, ← zpow_natCast, ← zpow_add₀ (by norm_num : (2 : ℚ) ≠ 0)]
        congr 1; omega
      rw [this]; push_cast; ring
    obtain ⟨q, hq⟩ : ∃ q, p = q + 1 := ⟨p - 1, by omega⟩
    have e2 : (2 : Int) ^ (p + 1) = 4 * 2 ^ q := by rw [hq, pow_succ, pow_succ]; ring
    rw [e1] at hgt hn
    have g1 : (2 : Int) ^ (p + 1) < m * 2 ^ d * 4 := by exact_mod_cast hgt
    have g2 : (2 : Int) ^ (p + 1) + 4 ≤ m * 2 ^ d * 4 := by rw [e2] at g1 ⊢; omega
    have g3 : (2 : ℚ) ^ (p + 1) + 4 ≤ ((m * 2 ^ d * 4 : Int) : ℚ) := by exact_mod_cast g2
    have := (abs_le.1 hn).2
    rw [hw] at this
    linarith
  unfold nsourceF
  simp only
  have hpos : 0 < 2 ^ (p + 1) := by positivity
  have hn1 : ¬ 2 ^ (p + 1) + 1 ≤ 1 := by omega
  rw [if_neg hn1, key, mul_one, hfl.exact hrep]
  have : ⌊(2 : ℚ) ^ (p + 1)⌋ = ((2 ^ (p + 1) : Nat) : Int) := by
    rw [Int.floor_eq_iff]; push_cast; constructor <;> linarith
  rw [this, Int.toNat_natCast, if_neg (not_lt.2 (by linarith))]

/-- C75, convergence: the precision lets the iteration stop when nothing has changed, whatever the number of particles. -/
theorem C75_stops (hfl : RoundsToNearest p fl) {precision : ℚ} (h1 : precision ≤ 1) : Stops fl precision := by
  intro n
  refine hfl.le_rep (hfl n).1 ?_
  have : (0 : ℚ) ≤ fl n := hfl.rep_le Rep.zero (Nat.cast_nonneg n)
  nlinarith

/-- C75, convergence: the iteration stops when nothing has changed. -/
theorem C75_converges (hfl : RoundsToNearest p fl) {precision : ℚ} (h1 : precision ≤ 1) (n : Nat) :
    convergedF fl precision n n = true := by
  unfold convergedF
  rw [decide_eq_true_eq]
  exact C75_stops hfl h1 n

/-- C75, convergence: when the iteration stops, the number of bound particles is the fraction `precision` of the last one, up to
the accuracy of the format. -/
theorem C75_converged (hp : 1 ≤ p) (hfl : RoundsToNearest p fl) {precision : ℚ} (h0 : 0 ≤ precision) {n nlast : Nat}
    (h : convergedF fl precision n nlast = true) :
    (1 - (2 : ℚ) ^ (2 - (p : Int))) * (precision * nlast) ≤ n := by
  unfold convergedF at h
  rw [decide_eq_true_eq] at h
  have hn0 : (0 : ℚ) ≤ n := Nat.cast_nonneg n
  have hl0 : (0 : ℚ) ≤ nlast := Nat.cast_nonneg nlast
  set u := (2 : ℚ) ^ (-(p : Int)) with hu
  have hu0 : 0 < u := by rw [hu]; positivity
  have hu4 : (2 : ℚ) ^ (2 - (p : Int)) = 4 * u := by
    rw [hu, sub_eq_add_neg, zpow_add₀ (by norm_num : (2 : ℚ) ≠ 0)]; norm_num
  have hu1 : u ≤ 1 / 2 := by
    have : (2 : ℚ) ^ (-(p : Int)) ≤ 2 ^ (-1 : Int) := zpow_le_zpow_right₀ (by norm_num) (by omega)
    rw [← hu] at this; norm_num at this ⊢; linarith
  rw [hu4]
  have e1 := (abs_le.1 (hfl.error hp (n : ℚ))).2
  have e2 := (abs_le.1 (hfl.error hp (nlast : ℚ))).1
  rw [← hu, abs_of_nonneg hn0] at e1
  rw [← hu, abs_of_nonneg hl0] at e2
  have hf0 : 0 ≤ fl nlast := hfl.rep_le Rep.zero hl0
  have hpos : 0 ≤ fl nlast * precision := mul_nonneg hf0 h0
  have e3 := (abs_le.1 (hfl.error hp (fl nlast * precision))).1
  rw [← hu, abs_of_nonneg hpos] at e3
  have h1 : (nlast : ℚ) * precision * (1 - u) ≤ fl nlast * precision := by nlinarith
  have h2 : fl nlast * precision * (1 - u) ≤ n * (1 + u) := by linarith
  have hX : 0 ≤ (nlast : ℚ) * precision := mul_nonneg hl0 h0
  have h3 : (nlast : ℚ) * precision * (1 - u) * (1 - u) ≤ n * (1 + u) := by nlinarith
  by_contra hc
  have hc := not_le.1 hc
  have h4 : (1 - 4 * u) * (1 + u) ≤ (1 - u) * (1 - u) := by nlinarith
  have h5 : (1 - 4 * u) * (precision * nlast) * (1 + u) ≤ (nlast : ℚ) * precision * (1 - u) * (1 - u) := by
    nlinarith
  nlinarith

/-- C75: without rounding the functions are those of the rest of the model. -/
theorem C75_exact (x L step : ℚ) (dim : Int) :
    positionModulusF id x L = positionModulus x L ∧ nearestF id L x = nearest L x ∧ getGridF id x step dim = getGrid x step dim :=
  ⟨rfl, rfl, rfl⟩

/-- C75: unbinding keeps as many particles as `nsourceF` says. -/
theorem C75_truncate {K D : Type} {cfg : UnbindConfig} (hfl : RoundsToNearest p cfg.fl) (h0 : 0 ≤ cfg.relax) (s : Sub K D) :
    truncateSource cfg s = s.withParticles (s.particles.take (nsourceF cfg.fl cfg.relax s.nbound s.particles.length)) := by
  have h1 : (0 : ℚ) ≤ cfg.fl (cfg.fl s.nbound * cfg.relax) :=
    hfl.rep_le Rep.zero (mul_nonneg (hfl.rep_le Rep.zero (Nat.cast_nonneg _)) h0)
  have h2 : 0 ≤ ⌊cfg.fl (cfg.fl s.nbound * cfg.relax)⌋ := Int.floor_nonneg.2 h1
  unfold truncateSource nsourceF truncToInt
  simp only
  rw [if_pos h1]
  congr 2
  split_ifs <;> omega

/-! Concrete cases, in single and double precision. -/
example : RoundsToNearest 24 (roundTo 24) ∧ RoundsToNearest 53 (roundTo 53) := ⟨roundTo_nearest (by norm_num), roundTo_nearest (by norm_num)⟩
example : Rep 24 (100 : ℚ) ∧ Rep 24 (12345 / 64 : ℚ) ∧ Rep 24 (-25 / 2 : ℚ) :=
  ⟨⟨100, 0, by norm_num, by norm_num⟩, ⟨12345, -6, by norm_num, by norm_num⟩, ⟨-25, -1, by norm_num, by norm_num⟩⟩
-- a position outside of the box, a slightly negative one, a separation, a cell, passes, the source and convergence
example : positionModulusF (roundTo 24) (1001 / 10) 100 ≠ 1 / 10 ∧ |positionModulusF (roundTo 24) (1001 / 10) 100 - 1 / 10| < 1 / 10000 := by
  decide +kernel
example : positionModulusF (roundTo 24) (-1 / 10 ^ 9) 1 = 1 := by decide +kernel
example : nearestF (roundTo 24) 100 (roundTo 24 (99 - 1 / 3)) = -174763 / 131072 := by decide +kernel
example : getGridF (roundTo 24) 100 (roundTo 24 (100 / 3)) 3 = 2 := by decide +kernel
example : numLoopsF (roundTo 53) 3000000000 (2 ^ 20) = 2862 := by decide +kernel
example : nsourceF (roundTo 24) 3 1000 5000 = 3000 ∧ nsourceF (roundTo 24) 1 33554433 33554433 = 33554432 := by decide +kernel
example : convergedF (roundTo 24) (roundTo 24 (995 / 1000)) 995 1000 = true ∧ convergedF (roundTo 24) (roundTo 24 (995 / 1000)) 994 1000 = false := by
  decide +kernel

end HBT.Props
