import Verif.Props.Profile
import Mathlib.Data.List.Induction
/-!
# C49 continued: the two functions for particles of one mass
-/
set_option linter.unusedSectionVars false
namespace HBT.Props
open HBT.Model HBT.Spec
variable {K : Type} [Field K] [LinearOrder K] [IsStrictOrderedRing K]

theorem scanCount_spec (rho : K) (rs : List K) :
    scanCount rho rs.reverse ≤ rs.length ∧
    (∀ j, scanCount rho rs.reverse ≤ j → ∀ hj : j < rs.length,
      ¬ rho * rs[j] ^ 3 < ((j + 1 : Nat) : K)) ∧
    ∀ i, scanCount rho rs.reverse = i + 1 → ∃ hi : i < rs.length,
      rho * rs[i] ^ 3 < ((i + 1 : Nat) : K) := by
  induction rs using List.reverseRecOn with
  | nil => exact ⟨le_refl _, fun j _ hj => absurd hj (by simp), fun i hi => absurd hi (by simp [scanCount])⟩
  | append_singleton rs r ih =>
    obtain ⟨h1, h2, h3⟩ := ih
    have hr3 : rho * r * r * r = rho * r ^ 3 := by ring
    rw [List.reverse_append, List.reverse_singleton, List.singleton_append, scanCount,
      List.length_reverse, hr3]
    by_cases hr : rho * r ^ 3 < ((rs.length + 1 : Nat) : K)
    · rw [if_pos hr]
      refine ⟨by simp, ?_, ?_⟩
      · intro j hj hjl
        simp at hjl
        omega
      · intro i hi
        have : i = rs.length := by omega
        subst this
        refine ⟨by simp, ?_⟩
        simpa using hr
    · rw [if_neg hr]
      refine ⟨by simp; omega, ?_, ?_⟩
      · intro j hj hjl
        by_cases hjr : j < rs.length
        · rw [List.getElem_append_left hjr]; exact h2 j hj hjr
        · have : j = rs.length := by simp at hjl; omega
          subst this
          simpa using hr
      · intro i hi
        obtain ⟨hil, hi2⟩ := h3 i hi
        refine ⟨by simp; omega, ?_⟩
        rw [List.getElem_append_left hil]
        exact hi2

/-- **C49.** For particles of one mass in order of distance: if no particle's radius is overdense the
reported mass and radius are zero; otherwise the mass is the one enclosed by a particle, and the
radius is the boundary of the overdense region, as for the bound profile. -/
theorem C49_constant_mass (cbrt : K → K) (hcbrt : ∀ x : K, 0 ≤ x → 0 ≤ cbrt x ∧ cbrt x ^ 3 = x)
    (factor hz g mass a rho : K) (hmass : 0 < mass)
    (hrho : rho = factor * hz ^ 2 / (2 * g) * a ^ 3) (hpos : 0 < rho)
    (rs : List K) (hsorted : rs.Pairwise (· ≤ ·)) (hnn : ∀ r ∈ rs, 0 ≤ r)
    (bodies : List (K × K)) (hb : bodies = rs.map (fun r => (r, mass)))
    (m r : K) (hres : overdensityConstant cbrt (rhoPerParticle factor hz g mass a) mass rs = (m, r)) :
    ((∀ b ∈ bodies, ¬ Overdense bodies rho b.1) → m = 0 ∧ r = 0) ∧
    ((∃ b ∈ bodies, Overdense bodies rho b.1) →
      ∃ b ∈ bodies, m = enclosedMass bodies b.1 ∧ rho * r ^ 3 = m ∧ b.1 < r ∧
        (∀ x, b.1 ≤ x → x < r → Overdense bodies rho x) ∧ ∀ x, r ≤ x → ¬ Overdense bodies rho x) := by
  have hpp : rhoPerParticle factor hz g mass a = rho / mass := by
    rw [hrho, rhoPerParticle]
    by_cases hg : g = 0
    · simp [hg]
    · field_simp
  rw [hpp] at hres
  obtain ⟨s1, s2, s3⟩ := scanCount_spec (rho / mass) rs
  simp only [overdensityConstant, Prod.mk.injEq] at hres
  obtain ⟨hm, hr⟩ := hres
  have hlen : bodies.length = rs.length := by rw [hb]; simp
  have hbs : bodies.Pairwise (fun a b => a.1 ≤ b.1) := by
    rw [hb, List.pairwise_map]; exact hsorted
  have hbm : ∀ b ∈ bodies, 0 ≤ b.2 := by
    intro b hbm
    rw [hb] at hbm
    obtain ⟨x, -, rfl⟩ := List.mem_map.mp hbm
    exact le_of_lt hmass
  have hget : ∀ i (hi : i < bodies.length), bodies[i] = (rs[i]'(by rw [← hlen]; exact hi), mass) := by
    intro i hi
    subst hb
    simp
  have hcum : ∀ i, i < bodies.length →
      ((bodies.take (i + 1)).map (·.2)).sum = ((i + 1 : Nat) : K) * mass := by
    intro i hi
    have : (bodies.take (i + 1)).map (·.2) = List.replicate (i + 1) mass := by
      rw [List.eq_replicate_iff]
      refine ⟨by simp; omega, ?_⟩
      intro x hx
      obtain ⟨b, hbb, rfl⟩ := List.mem_map.mp hx
      have := List.mem_of_mem_take hbb
      rw [hb] at this
      obtain ⟨y, -, rfl⟩ := List.mem_map.mp this
      rfl
    rw [this, List.sum_replicate, nsmul_eq_mul]
  have hres0 : ∀ i (hi : i < bodies.length), resolved 0 bodies[i].1 = bodies[i].1 := by
    intro i hi
    rw [hget i hi]
    exact max_eq_left (hnn _ (List.getElem_mem _))
  have hconv : ∀ (c : Nat) (x : K), rho / mass * x ^ 3 < (c : K) ↔ rho * x ^ 3 < (c : K) * mass := by
    intro c x
    rw [show rho / mass * x ^ 3 = rho * x ^ 3 / mass by ring, div_lt_iff₀ hmass]
  cases hc : scanCount (rho / mass) rs.reverse with
  | zero =>
    rw [hc] at hm hr s2
    have hnone : ∀ b ∈ bodies, ¬ Overdense bodies rho b.1 := by
      intro b hbm' hov
      have hbr : b.1 ≤ b.1 := le_refl _
      obtain ⟨j, hj, hjR, hbj, hje⟩ := cum_last bodies hbs _ b hbm' hbr
      have hjn := s2 j (Nat.zero_le _) (by rw [← hlen]; exact hj)
      apply hjn
      rw [hconv, ← hcum j hj, hje]
      have : rs[j]'(by rw [← hlen]; exact hj) = b.1 := by
        have h1 := hget j hj
        rw [h1] at hjR hbj
        exact le_antisymm hjR hbj
      rw [this]
      exact hov
    constructor
    · intro _
      refine ⟨by rw [← hm]; simp, ?_⟩
      rw [← hr, Nat.cast_zero, zero_div]
      obtain ⟨-, h⟩ := hcbrt 0 (le_refl _)
      exact pow_eq_zero_iff (by norm_num) |>.mp h
    · rintro ⟨b, hb1, hb2⟩
      exact absurd hb2 (hnone b hb1)
  | succ k =>
    obtain ⟨hk, hkov⟩ := s3 k hc
    have hkb : k < bodies.length := by rw [hlen]; exact hk
    have hov : rho * resolved 0 bodies[k].1 ^ 3 < ((bodies.take (k + 1)).map (·.2)).sum := by
      rw [hres0 k hkb, hcum k hkb, ← hconv, hget k hkb]
      exact hkov
    have hmk : m = ((bodies.take (k + 1)).map (·.2)).sum := by rw [hcum k hkb, ← hm, hc]
    have hrk : r = cbrt ((((k + 1 : Nat) : K)) / (rho / mass)) := by rw [← hr, hc]
    have hxn : (0 : K) ≤ ((k + 1 : Nat) : K) / (rho / mass) :=
      div_nonneg (Nat.cast_nonneg _) (le_of_lt (div_pos hpos hmass))
    obtain ⟨c1, c2⟩ := hcbrt _ hxn
    have hx3 : rho * r ^ 3 = ((bodies.take (k + 1)).map (·.2)).sum := by
      rw [hrk, c2, hcum k hkb]
      field_simp
    obtain ⟨g1, g2, g3, g4⟩ := outermost_boundary bodies hbs hbm 0 rho r (le_refl _) hpos k hkb hov
      (fun j hj hjl => by
        rw [hres0 j hjl, hcum j hjl, ← hconv, hget j hjl]
        exact s2 j (by omega) (by rw [← hlen]; exact hjl)) (by rw [hrk]; exact c1) hx3
    rw [hres0 k hkb] at g1 g2 g3
    constructor
    · intro h
      exact absurd (g3 _ (le_refl _) g2) (h _ (List.getElem_mem _))
    · intro _
      exact ⟨bodies[k], List.getElem_mem _, by rw [g1, hmk], by rw [hx3, hmk], g2, g3, g4⟩

/-! ## The iterative function -/

theorem shrinkTo_spec (rs : List K) (x : K) (nd : Nat) (hnd : nd ≤ rs.length) :
    ∃ n, shrinkTo rs x nd = .ok n ∧ n ≤ nd ∧
      (∀ j, n ≤ j → j < nd → ∀ hj : j < rs.length, ¬ rs[j] < x) ∧
      ∀ i, n = i + 1 → ∃ hi : i < rs.length, rs[i] < x := by
  induction nd with
  | zero => exact ⟨0, rfl, le_refl _, fun j _ hj => absurd hj (by omega), fun i hi => by omega⟩
  | succ i ih =>
    have hi : i < rs.length := by omega
    by_cases h : rs[i] < x
    · refine ⟨i + 1, ?_, le_refl _, fun j h1 h2 => by omega, ?_⟩
      · rw [shrinkTo, Outcome.get_of_lt hi, Outcome.bind_ok, if_pos h]
      · intro i' hi'
        have : i' = i := by omega
        subst this
        exact ⟨hi, h⟩
    · obtain ⟨n, e, h1, h2, h3⟩ := ih (by omega)
      refine ⟨n, ?_, by omega, ?_, h3⟩
      · rw [shrinkTo, Outcome.get_of_lt hi, Outcome.bind_ok, if_neg h, e]
      · intro j hj1 hj2 hjl
        by_cases hji : j = i
        · subst hji; exact h
        · exact h2 j hj1 (by omega) hjl

/-- What the radius guesses must satisfy: `guess n` is where `n` particles meet the threshold. -/
structure Guesses (rho : K) (guess : Nat → K) : Prop where
  pos : 0 < rho
  nonneg : ∀ n, 0 ≤ guess n
  cube : ∀ n, rho * guess n ^ 3 = (n : K)

theorem Guesses.lt_iff {rho : K} {guess : Nat → K} (h : Guesses rho guess) (n : Nat) (r : K)
    (hr : 0 ≤ r) : r < guess n ↔ rho * r ^ 3 < (n : K) := by
  rw [← h.cube n]
  constructor
  · intro hl
    exact mul_lt_mul_of_pos_left (pow_lt_pow_left₀ hl hr (by norm_num)) h.pos
  · intro hl
    by_contra hc
    have := mul_le_mul_of_nonneg_left (pow_le_pow_left₀ (h.nonneg n) (not_lt.mp hc) 3) (le_of_lt h.pos)
    exact absurd hl (not_lt.mpr this)

theorem Guesses.mono {rho : K} {guess : Nat → K} (h : Guesses rho guess) {n m : Nat} (hnm : n < m) :
    guess n < guess m := by
  rw [h.lt_iff m _ (h.nonneg n), h.cube n]
  exact_mod_cast hnm

theorem overdensityLoop_spec {rho : K} {guess : Nat → K} (hg : Guesses rho guess) (tol : K)
    (htol : 0 < tol) (rs : List K) (hnn : ∀ r ∈ rs, 0 ≤ r) :
    ∀ (fuel ndiv : Nat) (rdiv : K), ndiv < fuel → ndiv ≤ rs.length → rdiv > guess ndiv →
      scanCount rho rs.reverse ≤ ndiv →
      ∃ n, overdensityLoop guess tol rs fuel ndiv rdiv (guess ndiv) = .ok (n, guess n) ∧
        scanCount rho rs.reverse ≤ n ∧ n ≤ rs.length ∧
        (4 * tol * (rs.length : K) ≤ 1 → n = scanCount rho rs.reverse) := by
  obtain ⟨s1, s2, s3⟩ := scanCount_spec rho rs
  intro fuel
  induction fuel with
  | zero => intro ndiv rdiv h; omega
  | succ fuel ih =>
    intro ndiv rdiv hf hl hgt hscan
    obtain ⟨n, e, n1, n2, n3⟩ := shrinkTo_spec rs (guess ndiv) ndiv hl
    have hlow : scanCount rho rs.reverse ≤ n := by
      by_contra hc
      obtain ⟨i, hi⟩ : ∃ i, scanCount rho rs.reverse = i + 1 := ⟨_, (Nat.succ_pred (by omega)).symm⟩
      obtain ⟨hil, hi2⟩ := s3 i hi
      apply n2 i (by omega) (by omega) hil
      have h1 := (hg.lt_iff (i + 1) rs[i] (hnn _ (List.getElem_mem _))).mpr hi2
      rcases Nat.lt_or_eq_of_le (show i + 1 ≤ ndiv by omega) with h2 | h2
      · exact lt_trans h1 (hg.mono h2)
      · rw [← h2]; exact h1
    have hfix : n = ndiv → n = scanCount rho rs.reverse := by
      intro hn
      by_contra hc
      obtain ⟨i, hi⟩ : ∃ i, n = i + 1 := ⟨_, (Nat.succ_pred (by omega)).symm⟩
      obtain ⟨hil, hi2⟩ := n3 i hi
      apply s2 i (by omega) hil
      rw [← hn, hi] at hi2
      exact (hg.lt_iff (i + 1) rs[i] (hnn _ (List.getElem_mem _))).mp hi2
    rw [overdensityLoop, if_pos hgt, e, Outcome.bind_ok]
    simp only
    by_cases hstop : n = 0 ∨ n = rs.length ∨ |(guess n - guess ndiv) / guess n| < tol
    · rw [if_pos hstop]
      refine ⟨n, rfl, hlow, by omega, ?_⟩
      intro htl
      by_cases hn : n = ndiv
      · exact hfix hn
      · rcases hstop with h0 | h0 | h0
        · omega
        · omega
        · by_cases hn0 : n = 0
          · omega
          · exfalso
            have hgpos : 0 < guess n := lt_of_le_of_lt (hg.nonneg 0) (hg.mono (by omega))
            have hstep : guess (n + 1) ≤ guess ndiv := by
              rcases Nat.lt_or_eq_of_le (show n + 1 ≤ ndiv by omega) with h2 | h2
              · exact le_of_lt (hg.mono h2)
              · rw [h2]
            rw [abs_div, abs_of_pos hgpos, div_lt_iff₀ hgpos] at h0
            have h1 := (abs_lt.mp h0).1
            have h2 : guess (n + 1) < (1 + tol) * guess n := by nlinarith
            have h3 := mul_lt_mul_of_pos_left
              (pow_lt_pow_left₀ h2 (hg.nonneg _) (show 3 ≠ 0 by norm_num)) hg.pos
            rw [hg.cube, mul_pow, mul_left_comm, hg.cube] at h3
            push_cast at h3
            have hnK : (1 : K) ≤ (n : K) := by exact_mod_cast Nat.one_le_iff_ne_zero.mpr hn0
            have hlenK : (n : K) ≤ (rs.length : K) := by exact_mod_cast (show n ≤ rs.length by omega)
            have ht1 : 4 * tol * (n : K) ≤ 1 := le_trans (by nlinarith) htl
            have ht2 : 4 * tol ≤ 1 := by nlinarith
            have h5 : (1 + tol) ^ 3 ≤ 1 + 4 * tol := by nlinarith [mul_pos htol htol]
            nlinarith
    · rw [if_neg hstop]
      have hne : n ≠ ndiv := by
        intro hn
        apply hstop
        right; right
        rw [hn, sub_self, zero_div, abs_zero]
        exact htol
      exact ih n (guess ndiv) (by omega) (by omega) (hg.mono (by omega)) hlow

/-- **C49.** The iterative search for particles of one mass always ends, within as many passes as
there are particles plus one. It never reports fewer particles than the scan from the outside, and
reports exactly as many for up to `1/(4 tol)` particles (25000 with the tolerance of 1e-5 in the
code), unless the outermost particle lies exactly on the threshold. -/
theorem C49_iterative (cbrt : K → K) (hcbrt : ∀ x : K, 0 ≤ x → 0 ≤ cbrt x ∧ cbrt x ^ 3 = x)
    (factor hz g mass a tol : K) (hfactor : 0 < factor) (hhz : 0 < hz) (hgp : 0 < g)
    (hmass : 0 < mass) (ha : 0 < a) (htol : 0 < tol)
    (rs : List K) (hnn : ∀ r ∈ rs, 0 ≤ r) (hne : 0 < rs.length)
    (fuel : Nat) (hfuel : rs.length < fuel) :
    ∃ n, overdensityIter (radiusGuess cbrt factor hz g mass a) tol rs fuel
        = .ok (n, radiusGuess cbrt factor hz g mass a n) ∧ n ≤ rs.length ∧
      (overdensityConstant cbrt (rhoPerParticle factor hz g mass a) mass rs).1 ≤ (n : K) * mass ∧
      (4 * tol * (rs.length : K) ≤ 1 →
        (rhoPerParticle factor hz g mass a) * rs[rs.length - 1] ^ 3 ≠ (rs.length : K) →
        (overdensityConstant cbrt (rhoPerParticle factor hz g mass a) mass rs)
          = ((n : K) * mass, radiusGuess cbrt factor hz g mass a n)) := by
  obtain ⟨rho, hrho⟩ : ∃ rho, rho = rhoPerParticle factor hz g mass a := ⟨_, rfl⟩
  have hpos : 0 < rho := by
    rw [hrho, rhoPerParticle]; positivity
  have hguess : Guesses rho (radiusGuess cbrt factor hz g mass a) := by
    refine ⟨hpos, ?_, ?_⟩
    · intro n
      exact div_nonneg (hcbrt _ (by positivity)).1 (le_of_lt ha)
    · intro n
      rw [radiusGuess, div_pow, (hcbrt _ (by positivity)).2, hrho, rhoPerParticle]
      field_simp
  have huniq : ∀ n : Nat, cbrt ((n : K) / rho) = radiusGuess cbrt factor hz g mass a n := by
    intro n
    obtain ⟨c1, c2⟩ := hcbrt ((n : K) / rho) (div_nonneg (Nat.cast_nonneg _) (le_of_lt hpos))
    have h3 := hguess.cube n
    have h4 : cbrt ((n : K) / rho) ^ 3 = radiusGuess cbrt factor hz g mass a n ^ 3 := by
      rw [c2, ← h3]; field_simp
    exact (pow_left_inj₀ c1 (hguess.nonneg n) (by norm_num)).mp h4
  rw [← hrho]
  obtain ⟨s1, s2, s3⟩ := scanCount_spec rho rs
  have hli : rs.length - 1 < rs.length := by omega
  have hlast0 : 0 ≤ rs[rs.length - 1] := hnn _ (List.getElem_mem _)
  suffices ∃ n, overdensityIter (radiusGuess cbrt factor hz g mass a) tol rs fuel
      = .ok (n, radiusGuess cbrt factor hz g mass a n) ∧ n ≤ rs.length ∧
      scanCount rho rs.reverse ≤ n ∧ (4 * tol * (rs.length : K) ≤ 1 →
        rho * rs[rs.length - 1] ^ 3 ≠ (rs.length : K) → n = scanCount rho rs.reverse) by
    obtain ⟨n, h1, h2, h3, h4⟩ := this
    refine ⟨n, h1, h2, ?_, ?_⟩
    · simp only [overdensityConstant]
      exact mul_le_mul_of_nonneg_right (by exact_mod_cast h3) (le_of_lt hmass)
    · intro ht hl
      have := h4 ht hl
      simp only [overdensityConstant, ← this, huniq]
  obtain ⟨guess, hge⟩ : ∃ guess, guess = radiusGuess cbrt factor hz g mass a := ⟨_, rfl⟩
  rw [← hge] at hguess ⊢
  rw [overdensityIter, if_neg (by omega), Outcome.get_of_lt hli, Outcome.bind_ok]
  by_cases hc : rs[rs.length - 1] > guess rs.length
  · obtain ⟨n, h1, h2, h3, h4⟩ := overdensityLoop_spec hguess tol htol rs hnn fuel rs.length _ hfuel
      (le_refl _) hc s1
    exact ⟨n, h1, h3, h2, fun ht _ => h4 ht⟩
  · refine ⟨rs.length, ?_, le_refl _, s1, ?_⟩
    · obtain ⟨f, rfl⟩ : ∃ f, fuel = f + 1 := ⟨_, (Nat.succ_pred (by omega)).symm⟩
      rw [overdensityLoop, if_neg hc]
      by_cases h2 : rs[rs.length - 1] < guess rs.length
      · rw [if_pos h2, List.drop_length, growTo, Outcome.bind_ok]
        simp
      · rw [if_neg h2, Outcome.bind_ok]
        simp
    · intro _ hl
      have hlt : rs[rs.length - 1] < guess rs.length := by
        rcases lt_or_eq_of_le (not_lt.mp hc) with h | h
        · exact h
        · exfalso; apply hl; rw [h, hguess.cube]
      have h1 := (hguess.lt_iff _ _ hlast0).mp hlt
      by_contra hne'
      apply s2 (rs.length - 1) (by omega) hli
      rw [show rs.length - 1 + 1 = rs.length by omega]
      exact h1

/-- **C49, finding.** The iterative search reads outside the array when there are no particles. -/
theorem C49_iterative_empty_finding (guess : Nat → K) (tol : K) (fuel : Nat) :
    overdensityIter guess tol [] fuel = .ub := rfl

end HBT.Props
