import Verif.Model.Average
import Verif.Spec.Average
import Mathlib.Tactic.Linarith
import Mathlib.Tactic.FieldSimp
import Mathlib.Tactic.Ring
/-!
# Lemmas about mass-weighted averages
-/
set_option linter.unusedSectionVars false
namespace HBT
open HBT.Model HBT.Spec
variable {K : Type} [Field K] [LinearOrder K] [IsStrictOrderedRing K]

theorem fold_velocity (ps : List (Weighted K)) (acc : Weighted K) :
    ps.foldl addVelocity acc = (acc.1 + massSum ps, fun j => acc.2 j + (ps.map (fun p => p.1 * p.2 j)).sum) := by
  induction ps generalizing acc with
  | nil => simp [massSum]
  | cons p ps ih =>
    rw [List.foldl_cons, ih]
    simp only [addVelocity, massSum, List.map_cons, List.sum_cons]
    congr 1
    · ring
    · funext j; ring

theorem fold_position_free (B : K) (o : Fin 3 → K) (ps : List (Weighted K)) (acc : Weighted K) :
    ps.foldl (addPosition false B o) acc
      = (acc.1 + massSum ps, fun j => acc.2 j + (ps.map (fun p => p.1 * p.2 j)).sum) := by
  induction ps generalizing acc with
  | nil => simp [massSum]
  | cons p ps ih =>
    rw [List.foldl_cons, ih]
    simp only [addPosition, massSum, List.map_cons, List.sum_cons, Bool.false_eq_true, if_false]
    congr 1
    · ring
    · funext j; ring

theorem nearest_unwrap (B d : K) (k : ℤ) (hB : 0 < B) (hd : |d| < B / 2) (hk : |k| ≤ 1) :
    nearest B (d + k * B) = d := by
  obtain ⟨h1, h2⟩ := abs_lt.mp hd
  obtain ⟨h3, h4⟩ := abs_le.mp hk
  have : k = -1 ∨ k = 0 ∨ k = 1 := by omega
  unfold nearest
  simp only
  rcases this with rfl | rfl | rfl
  · push_cast
    rw [if_neg (by linarith), if_pos (by linarith)]; ring
  · push_cast
    rw [if_neg (by linarith), if_neg (by linarith)]; ring
  · push_cast
    rw [if_pos (by linarith)]; ring

/-- Close to the origin `q0` in free space, and at most one box length further away. -/
def Near (B : K) (q0 p : BoxParticle K) : Prop :=
  ∀ j, |p.pos j - q0.pos j| < B / 2 ∧ |p.turns j - q0.turns j| ≤ 1

theorem fold_position_box (B : K) (hB : 0 < B) (q0 : BoxParticle K) (qs : List (BoxParticle K)) (h : ∀ p ∈ qs, Near B q0 p)
    (acc : Weighted K) :
    (qs.map (BoxParticle.seen B)).foldl (addPosition true B (q0.seen B).2) acc
      = (acc.1 + massSum (qs.map BoxParticle.free), fun j => acc.2 j
          + (((qs.map BoxParticle.free).map (fun p => p.1 * p.2 j)).sum - massSum (qs.map BoxParticle.free) * q0.pos j)) := by
  induction qs generalizing acc with
  | nil => simp [massSum]
  | cons p ps ih =>
    rw [List.map_cons, List.foldl_cons, ih (fun p hp => h p (by simp [hp]))]
    have hp := h p (by simp)
    simp only [addPosition, massSum, List.map_cons, List.sum_cons, if_true]
    congr 1
    · simp only [BoxParticle.seen, BoxParticle.free]; ring
    · funext j
      have e : (p.seen B).2 j - (q0.seen B).2 j = (p.pos j - q0.pos j) + ((p.turns j - q0.turns j : ℤ) : K) * B := by
        simp only [BoxParticle.seen]; push_cast; ring
      rw [e, nearest_unwrap B _ _ hB (hp j).1 (hp j).2]
      simp only [BoxParticle.seen, BoxParticle.free]
      ring

theorem averagePosition_free (B : K) (com : Fin 3 → K) (ps : List (Weighted K)) (hne : ps ≠ [])
    (hm : massSum ps ≠ 0) :
    averagePosition false B com ps = (massSum ps, massMean ps) := by
  match ps, hne with
  | [p], _ =>
    have h0 : p.1 ≠ 0 := by simpa [massSum] using hm
    obtain ⟨m, x⟩ := p
    simp only [averagePosition, massSum, massMean, List.map_cons, List.map_nil, List.sum_cons, List.sum_nil, add_zero]
    congr 1
    funext j
    simp only [massMean, massSum, List.map_cons, List.map_nil, List.sum_cons, List.sum_nil, add_zero]
    exact (mul_div_cancel_left₀ (x j) h0).symm
  | p :: q :: ps, _ =>
    simp only [averagePosition]
    rw [fold_position_free]
    simp only [zero_add, Bool.false_eq_true, if_false]
    rfl

theorem averagePosition_box (B : K) (hB : 0 < B) (com : Fin 3 → K) (q0 : BoxParticle K) (qs : List (BoxParticle K))
    (h : ∀ p ∈ q0 :: qs, Near B q0 p) (hm : massSum ((q0 :: qs).map BoxParticle.free) ≠ 0) :
    averagePosition true B com ((q0 :: qs).map (BoxParticle.seen B))
      = (massSum ((q0 :: qs).map BoxParticle.free),
          fun j => massMean ((q0 :: qs).map BoxParticle.free) j + q0.turns j * B) := by
  cases qs with
  | nil =>
    have h0 : q0.mass ≠ 0 := by simpa [massSum, BoxParticle.free] using hm
    simp only [averagePosition, massSum, massMean, List.map_cons, List.map_nil, List.sum_cons, List.sum_nil,
      add_zero, BoxParticle.seen, BoxParticle.free]
    congr 1
    funext j
    rw [mul_div_cancel_left₀ _ h0]
  | cons q1 qs =>
    have hf := fold_position_box B hB q0 (q0 :: q1 :: qs) h (0, fun _ => 0)
    simp only [List.map_cons] at hf hm ⊢
    simp only [averagePosition]
    rw [hf]
    simp only [zero_add, if_true]
    congr 1
    funext j
    rw [massMean, sub_div, mul_div_cancel_left₀ _ hm]
    simp only [BoxParticle.seen, List.map_cons]
    ring

theorem turns_near (B : K) (hB : 0 < B) (p q : BoxParticle K) (hc : ∀ j, |p.pos j - q.pos j| < B / 2)
    (hp : ∀ j, 0 ≤ (p.seen B).2 j ∧ (p.seen B).2 j < B) (hq : ∀ j, 0 ≤ (q.seen B).2 j ∧ (q.seen B).2 j < B) :
    ∀ j, |p.turns j - q.turns j| ≤ 1 := by
  intro j
  obtain ⟨a1, a2⟩ := hp j
  obtain ⟨b1, b2⟩ := hq j
  obtain ⟨c1, c2⟩ := abs_lt.mp (hc j)
  simp only [BoxParticle.seen] at a1 a2 b1 b2
  have h1 : ((p.turns j - q.turns j : ℤ) : K) * B < 2 * B := by push_cast; nlinarith
  have h2 : -(2 * B) < ((p.turns j - q.turns j : ℤ) : K) * B := by push_cast; nlinarith
  have h3 : ((p.turns j - q.turns j : ℤ) : K) < 2 := by
    by_contra hx; push Not at hx
    have := mul_le_mul_of_nonneg_right hx hB.le
    linarith
  have h4 : (-2 : K) < ((p.turns j - q.turns j : ℤ) : K) := by
    by_contra hx; push Not at hx
    have := mul_le_mul_of_nonneg_right hx hB.le
    linarith
  have h3' : p.turns j - q.turns j < 2 := by exact_mod_cast h3
  have h4' : -2 < p.turns j - q.turns j := by exact_mod_cast h4
  rw [abs_le]
  constructor <;> omega

theorem massSum_pos (ps : List (K × (Fin 3 → K))) (hne : ps ≠ []) (hm : ∀ p ∈ ps, 0 < p.1) : 0 < massSum ps := by
  unfold massSum
  induction ps with
  | nil => exact absurd rfl hne
  | cons p ps ih =>
    rw [List.map_cons, List.sum_cons]
    have hp := hm p (by simp)
    cases ps with
    | nil => simpa using hp
    | cons q ps => exact add_pos hp (ih (by simp) (fun x hx => hm x (by simp [List.mem_cons.mp hx])))

theorem massMean_perm {ps qs : List (K × (Fin 3 → K))} (h : ps.Perm qs) : massMean ps = massMean qs := by
  funext j
  simp only [massMean, massSum]
  rw [(h.map _).sum_eq, (h.map _).sum_eq]

theorem mean_of_means (L : List (List (K × (Fin 3 → K)))) (h : ∀ l ∈ L, massSum l ≠ 0) :
    massMean (L.map (fun l => (massSum l, massMean l))) = massMean L.flatten := by
  have h1 : massSum (L.map (fun l => (massSum l, massMean l))) = massSum L.flatten := by
    clear h
    induction L with
    | nil => rfl
    | cons l L ih =>
      simp only [massSum, List.map_cons, List.sum_cons, List.flatten_cons, List.map_append, List.sum_append] at ih ⊢
      rw [ih]
  funext j
  have h2 : ((L.map (fun l => (massSum l, massMean l))).map (fun p => p.1 * p.2 j)).sum
      = (L.flatten.map (fun p => p.1 * p.2 j)).sum := by
    clear h1
    induction L with
    | nil => rfl
    | cons l L ih =>
      simp only [List.map_cons, List.sum_cons, List.flatten_cons, List.map_append, List.sum_append]
      rw [ih (fun l hl => h l (by simp [hl])), massMean, mul_div_cancel₀ _ (h l (by simp))]
  rw [massMean, massMean, h1, h2]

/-- A mean is as close to a point as the particles are. -/
theorem mean_near (ps : List (K × (Fin 3 → K))) (hne : ps ≠ []) (hm : ∀ p ∈ ps, 0 < p.1) (j : Fin 3) (y c : K)
    (h : ∀ p ∈ ps, |p.2 j - y| < c) : |massMean ps j - y| < c := by
  have hpos := massSum_pos ps hne hm
  have key : ∀ qs : List (K × (Fin 3 → K)), qs ≠ [] → (∀ p ∈ qs, 0 < p.1) → (∀ p ∈ qs, |p.2 j - y| < c) →
      (y - c) * massSum qs < (qs.map (fun p => p.1 * p.2 j)).sum ∧
      (qs.map (fun p => p.1 * p.2 j)).sum < (y + c) * massSum qs := by
    intro qs
    induction qs with
    | nil => intro h; exact absurd rfl h
    | cons q qs ih =>
      intro _ h1 h2
      obtain ⟨a, b⟩ := abs_lt.mp (h2 q (by simp))
      have hq := h1 q (by simp)
      have e1 : (y - c) * q.1 < q.1 * q.2 j := by nlinarith
      have e2 : q.1 * q.2 j < (y + c) * q.1 := by nlinarith
      simp only [massSum, List.map_cons, List.sum_cons] at ih ⊢
      rw [mul_add, mul_add]
      cases qs with
      | nil => simp only [List.map_nil, List.sum_nil, mul_zero, add_zero]; exact ⟨e1, e2⟩
      | cons q' qs =>
        obtain ⟨i1, i2⟩ := ih (by simp) (fun p hp => h1 p (List.mem_cons_of_mem _ hp)) (fun p hp => h2 p (List.mem_cons_of_mem _ hp))
        exact ⟨add_lt_add e1 i1, add_lt_add e2 i2⟩
  obtain ⟨k1, k2⟩ := key ps hne hm h
  rw [abs_lt, massMean]
  constructor
  · have := (lt_div_iff₀ hpos).mpr k1; linarith
  · have := (div_lt_iff₀ hpos).mpr k2; linarith

end HBT
