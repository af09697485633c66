import Verif.Model.Sink
import Verif.Spec.Sink
import Verif.Lemmas.Average
import Mathlib.Tactic.Ring
import Mathlib.Tactic.FieldSimp
import Mathlib.Tactic.Linarith
import Mathlib.Tactic.FinCases
/-!
# Helper lemmas: the core of a subhalo
-/
namespace HBT
open HBT.Model HBT.Spec
variable {K D : Type} [Field K]

theorem coreLoop_eq (mass : D → K) (f : D → Fin 3 → K) (ps : List (Particle D)) (n i : Nat) (a : CoreSums K)
    (h : i + n ≤ ps.length) :
    coreLoop mass f ps n i a = .ok
      ⟨a.msum + massSum (((ps.drop i).take n).map (fun p => (mass p.data, f p.data))),
       fun j => a.sx j + ((((ps.drop i).take n).map (fun p => (mass p.data, f p.data))).map (fun p => p.1 * p.2 j)).sum,
       fun j => a.sx2 j + ((((ps.drop i).take n).map (fun p => (mass p.data, f p.data))).map (fun p => p.1 * (p.2 j * p.2 j))).sum⟩ := by
  induction n generalizing i a with
  | zero => simp [coreLoop, massSum]
  | succ n ih =>
    have hi : i < ps.length := by omega
    rw [coreLoop, Outcome.get_of_lt hi, Outcome.bind_ok]
    simp only
    rw [ih _ _ (by omega), List.drop_eq_getElem_cons hi, List.take_succ_cons]
    simp only [massSum, List.map_cons, List.sum_cons]
    congr 1
    refine CoreSums.mk.injEq _ _ _ _ _ _ ▸ ⟨by ring, ?_, ?_⟩
    · funext j; ring
    · funext j; ring

/-- The sum of squares about a point, expanded. -/
theorem sum_about (ps : List (K × (Fin 3 → K))) (j : Fin 3) (c : K) :
    (ps.map (fun p => p.1 * ((p.2 j - c) * (p.2 j - c)))).sum
      = (ps.map (fun p => p.1 * (p.2 j * p.2 j))).sum - 2 * c * (ps.map (fun p => p.1 * p.2 j)).sum + c * c * massSum ps := by
  induction ps with
  | nil => simp [massSum]
  | cons p ps ih =>
    simp only [massSum, List.map_cons, List.sum_cons] at ih ⊢
    rw [ih]; ring

theorem sum_norm2 (ps : List (K × (Fin 3 → K))) (c : Fin 3 → K) :
    (ps.map (fun p => p.1 * norm2 (fun j => p.2 j - c j))).sum
      = (ps.map (fun p => p.1 * ((p.2 0 - c 0) * (p.2 0 - c 0)))).sum
        + (ps.map (fun p => p.1 * ((p.2 1 - c 1) * (p.2 1 - c 1)))).sum
        + (ps.map (fun p => p.1 * ((p.2 2 - c 2) * (p.2 2 - c 2)))).sum := by
  induction ps with
  | nil => simp
  | cons p ps ih =>
    simp only [List.map_cons, List.sum_cons] at ih ⊢
    rw [ih]; simp only [norm2]; ring

/-- The one-pass formula of the code gives the spread about the mean. -/
theorem coreSpread_eq (ps : List (K × (Fin 3 → K))) (hm : massSum ps ≠ 0) :
    coreSpread ⟨massSum ps, fun j => (ps.map (fun p => p.1 * p.2 j)).sum, fun j => (ps.map (fun p => p.1 * (p.2 j * p.2 j))).sum⟩
      = massVar ps := by
  rw [massVar, sum_norm2, sum_about, sum_about, sum_about]
  simp only [coreSpread, massMean]
  field_simp
  ring

/-- Moving all vectors moves the mean. -/
theorem massMean_shift (ps : List (K × (Fin 3 → K))) (hm : massSum ps ≠ 0) (c : Fin 3 → K) (j : Fin 3) :
    massMean (ps.map (fun p => (p.1, fun j => p.2 j + c j))) j = massMean ps j + c j := by
  have h1 : massSum (ps.map (fun p => (p.1, fun j => p.2 j + c j))) = massSum ps := by
    simp [massSum, Function.comp_def]
  have h2 : ((ps.map (fun p => (p.1, fun j => p.2 j + c j))).map (fun p => p.1 * p.2 j)).sum
      = (ps.map (fun p => p.1 * p.2 j)).sum + massSum ps * c j := by
    clear hm h1
    induction ps with
    | nil => simp [massSum]
    | cons p ps ih =>
      simp only [massSum, List.map_cons, List.sum_cons] at ih ⊢
      rw [ih]; ring
  rw [massMean, h1, h2, massMean]
  field_simp

/-- Moving all vectors does not change the spread. -/
theorem massVar_shift (ps : List (K × (Fin 3 → K))) (hm : massSum ps ≠ 0) (c : Fin 3 → K) :
    massVar (ps.map (fun p => (p.1, fun j => p.2 j + c j))) = massVar ps := by
  have h1 : massSum (ps.map (fun p => (p.1, fun j => p.2 j + c j))) = massSum ps := by
    simp [massSum, Function.comp_def]
  rw [massVar, massVar, h1, List.map_map]
  congr 2
  refine List.map_congr_left (fun p _ => ?_)
  simp only [Function.comp_apply]
  congr 2
  funext j
  rw [massMean_shift ps hm c j]
  ring

section Order
variable [LinearOrder K] [IsStrictOrderedRing K]

theorem norm2_nonneg (v : Fin 3 → K) : 0 ≤ norm2 v := by
  unfold norm2; nlinarith [mul_self_nonneg (v 0), mul_self_nonneg (v 1), mul_self_nonneg (v 2)]

theorem norm2_eq_zero {v : Fin 3 → K} (h : norm2 v = 0) : ∀ j, v j = 0 := by
  unfold norm2 at h
  have h0 := mul_self_nonneg (v 0)
  have h1 := mul_self_nonneg (v 1)
  have h2 := mul_self_nonneg (v 2)
  intro j
  apply mul_self_eq_zero.mp
  fin_cases j
  · show v 0 * v 0 = 0; linarith
  · show v 1 * v 1 = 0; linarith
  · show v 2 * v 2 = 0; linarith

theorem sum_nonneg_list (l : List K) (h : ∀ x ∈ l, 0 ≤ x) : 0 ≤ l.sum := by
  induction l with
  | nil => simp
  | cons a l ih =>
    rw [List.sum_cons]
    have := h a (by simp)
    have := ih (fun x hx => h x (by simp [hx]))
    linarith

theorem sum_zero_list (l : List K) (h : ∀ x ∈ l, 0 ≤ x) (h0 : l.sum = 0) : ∀ x ∈ l, x = 0 := by
  induction l with
  | nil => simp
  | cons a l ih =>
    rw [List.sum_cons] at h0
    have h1 := h a (by simp)
    have h2 := sum_nonneg_list l (fun x hx => h x (by simp [hx]))
    intro x hx
    rcases List.mem_cons.mp hx with rfl | hx
    · linarith
    · exact ih (fun x hx => h x (by simp [hx])) (by linarith) x hx

theorem massVar_nonneg (ps : List (K × (Fin 3 → K))) (hm : ∀ p ∈ ps, 0 < p.1) : 0 ≤ massVar ps := by
  unfold massVar
  apply div_nonneg
  · apply sum_nonneg_list
    intro x hx
    obtain ⟨p, hp, rfl⟩ := List.mem_map.mp hx
    exact mul_nonneg (hm p hp).le (norm2_nonneg _)
  · apply sum_nonneg_list
    intro x hx
    obtain ⟨p, hp, rfl⟩ := List.mem_map.mp hx
    exact (hm p hp).le

theorem massVar_eq_zero (ps : List (K × (Fin 3 → K))) (hne : ps ≠ []) (hm : ∀ p ∈ ps, 0 < p.1) :
    massVar ps = 0 ↔ ∀ p ∈ ps, ∀ q ∈ ps, p.2 = q.2 := by
  have hM := massSum_pos ps hne hm
  constructor
  · intro h
    rw [massVar, div_eq_zero_iff] at h
    have h := h.resolve_right hM.ne'
    have key : ∀ p ∈ ps, ∀ j, p.2 j = massMean ps j := by
      intro p hp j
      have := sum_zero_list _ (by
        intro x hx
        obtain ⟨p, hp, rfl⟩ := List.mem_map.mp hx
        exact mul_nonneg (hm p hp).le (norm2_nonneg _)) h _ (List.mem_map.mpr ⟨p, hp, rfl⟩)
      have := (mul_eq_zero.mp this).resolve_left (hm p hp).ne'
      have := norm2_eq_zero this j
      linarith
    intro p hp q hq
    funext j
    rw [key p hp j, key q hq j]
  · intro h
    cases ps with
    | nil => exact absurd rfl hne
    | cons p0 ps =>
      have hmean : ∀ j, massMean (p0 :: ps) j = p0.2 j := by
        intro j
        rw [massMean, div_eq_iff hM.ne', massSum, ← List.sum_map_mul_left]
        congr 1
        apply List.map_congr_left
        intro p hp
        rw [h p hp p0 (by simp)]; ring
      rw [massVar, div_eq_zero_iff]
      left
      apply List.sum_eq_zero
      intro x hx
      obtain ⟨p, hp, rfl⟩ := List.mem_map.mp hx
      have : norm2 (fun j => p.2 j - massMean (p0 :: ps) j) = 0 := by
        simp only [norm2, hmean, h p hp p0 (by simp)]; ring
      rw [this, mul_zero]

theorem sqrt_eq_zero_iff {sqrt : K → K} (hs : IsSqrt sqrt) {x : K} (hx : 0 ≤ x) : sqrt x = 0 ↔ x = 0 := by
  obtain ⟨h1, h2⟩ := hs x hx
  constructor
  · intro h; rw [h] at h2; linarith
  · intro h; rw [h] at h2 ⊢; exact mul_self_eq_zero.mp h2

/-- `NEAREST` of a difference of less than one and a half boxes is the shortest way. -/
theorem nearest_shortest (B d : K) (hd : |d| ≤ 3 * B / 2) :
    |nearest B d| ≤ B / 2 ∧ ∃ k : ℤ, nearest B d = d + k * B := by
  obtain ⟨h1, h2⟩ := abs_le.mp hd
  unfold nearest
  simp only
  split
  · refine ⟨abs_le.mpr ⟨by linarith, by linarith⟩, -1, by push_cast; ring⟩
  · split
    · refine ⟨abs_le.mpr ⟨by linarith, by linarith⟩, 1, by push_cast; ring⟩
    · refine ⟨abs_le.mpr ⟨by linarith, by linarith⟩, 0, by simp⟩

/-- Shortest ways have one length. -/
theorem shortest_sq (B a b : K) (hB : 0 < B) (ha : |a| ≤ B / 2) (hb : |b| ≤ B / 2) (k : ℤ) (h : a = b + k * B) : a * a = b * b := by
  obtain ⟨a1, a2⟩ := abs_le.mp ha
  obtain ⟨b1, b2⟩ := abs_le.mp hb
  have k1 : k ≤ 1 := by
    by_contra hk
    have : (2 : ℤ) ≤ k := by omega
    have : (2 : K) ≤ k := by exact_mod_cast this
    nlinarith
  have k2 : -1 ≤ k := by
    by_contra hk
    have : k ≤ (-2 : ℤ) := by omega
    have : (k : K) ≤ -2 := by exact_mod_cast this
    nlinarith
  have : k = -1 ∨ k = 0 ∨ k = 1 := by omega
  rcases this with rfl | rfl | rfl
  · push_cast at h
    have e1 : b = B / 2 := by linarith
    have e2 : a = -(B / 2) := by linarith
    rw [e1, e2]; ring
  · push_cast at h
    rw [h]; ring
  · push_cast at h
    have e1 : b = -(B / 2) := by linarith
    have e2 : a = (B / 2) := by linarith
    rw [e1, e2]; ring

end Order
end HBT
