import Verif.Model.Profile
import Verif.Spec.Profile
import Mathlib.Tactic.Linarith
import Mathlib.Tactic.FieldSimp
import Mathlib.Tactic.Ring
import Mathlib.Algebra.Order.BigOperators.Group.List
import Mathlib.Data.List.Perm.Basic
/-!
# Lemmas about radial profiles
-/
set_option linter.unusedSectionVars false
namespace HBT
open HBT.Model HBT.Spec
variable {K : Type} [Field K] [LinearOrder K] [IsStrictOrderedRing K]

theorem cumulate_length (acc : K) (l : List (K × K)) : (cumulate acc l).length = l.length := by
  induction l generalizing acc with
  | nil => rfl
  | cons p l ih => obtain ⟨r, m⟩ := p; simp [cumulate, ih]

theorem cumulate_getElem (acc : K) (l : List (K × K)) (i : Nat) (h : i < l.length) :
    (cumulate acc l)[i]'(by rw [cumulate_length]; exact h)
      = (l[i].1, acc + ((l.take (i + 1)).map (·.2)).sum) := by
  induction l generalizing acc i with
  | nil => simp at h
  | cons p l ih =>
    obtain ⟨r, m⟩ := p
    cases i with
    | zero => simp [cumulate]
    | succ i =>
      simp only [List.length_cons, Nat.add_lt_add_iff_right] at h
      simp only [cumulate, List.getElem_cons_succ, ih _ _ h, List.take_succ_cons, List.map_cons,
        List.sum_cons]
      rw [add_assoc]

theorem maxElement_mem (best : ProfPoint K) (l : List (ProfPoint K)) :
    maxElement best l ∈ best :: l := by
  induction l generalizing best with
  | nil => simp [maxElement]
  | cons p l ih =>
    rw [maxElement]
    have h := ih (if best.v < p.v then p else best)
    rcases List.mem_cons.mp h with h | h
    · rw [h]; split
      · simp
      · simp
    · simp [h]

theorem le_maxElement (best : ProfPoint K) (l : List (ProfPoint K)) :
    ∀ p ∈ best :: l, p.v ≤ (maxElement best l).v := by
  induction l generalizing best with
  | nil => simp [maxElement]
  | cons q l ih =>
    intro p hp
    rw [maxElement]
    have h := ih (if best.v < q.v then q else best)
    have h0 := h _ List.mem_cons_self
    rcases List.mem_cons.mp hp with rfl | hp
    · refine le_trans ?_ h0
      split
      · exact le_of_lt ‹_›
      · exact le_refl _
    · rcases List.mem_cons.mp hp with rfl | hp
      · refine le_trans ?_ h0
        split
        · exact le_refl _
        · exact not_lt.mp ‹_›
      · exact h p (List.mem_cons_of_mem _ hp)

/-- In a list sorted by radius, the bodies within `R` come first. -/
theorem sorted_filter (l : List (K × K)) (h : l.Pairwise (fun a b => a.1 ≤ b.1)) (R : K) :
    l.filter (fun b => decide (b.1 ≤ R)) = l.take (l.countP (fun b => decide (b.1 ≤ R))) := by
  induction l with
  | nil => rfl
  | cons p l ih =>
    obtain ⟨h1, h2⟩ := List.pairwise_cons.mp h
    by_cases hp : p.1 ≤ R
    · rw [List.filter_cons_of_pos (by simpa using hp), List.countP_cons_of_pos (by simpa using hp),
        List.take_succ_cons, ih h2]
    · have h0 : l.filter (fun b => decide (b.1 ≤ R)) = [] := by
        rw [List.filter_eq_nil_iff]
        intro b hb
        have := h1 b hb
        simp only [decide_eq_true_eq, not_le]
        exact lt_of_lt_of_le (not_le.mp hp) this
      rw [List.filter_cons_of_neg (by simpa using hp), List.countP_cons_of_neg (by simpa using hp),
        List.countP_eq_length_filter, h0]
      rfl

theorem enclosedMass_perm {l l' : List (K × K)} (h : l.Perm l') (R : K) :
    enclosedMass l R = enclosedMass l' R := by
  unfold enclosedMass
  exact ((h.filter _).map _).sum_eq

theorem cum_sum_mono (l : List K) (h : ∀ x ∈ l, 0 ≤ x) {i j : Nat} (hij : i ≤ j) :
    (l.take i).sum ≤ (l.take j).sum := by
  have hs : (l.take j) = l.take i ++ (l.drop i).take (j - i) := by
    conv_lhs => rw [show j = i + (j - i) by omega]
    rw [List.take_add]
  rw [hs, List.sum_append]
  have := List.sum_nonneg (l := (l.drop i).take (j - i)) (fun x hx =>
    h x (List.mem_of_mem_drop (List.mem_of_mem_take hx)))
  linarith

theorem sorted_le (l : List (K × K)) (h : l.Pairwise (fun a b => a.1 ≤ b.1)) {i j : Nat}
    (hij : i ≤ j) (hj : j < l.length) : (l[i]'(by omega)).1 ≤ l[j].1 := by
  rcases Nat.lt_or_eq_of_le hij with h1 | rfl
  · exact List.pairwise_iff_getElem.mp h i j (by omega) hj h1
  · exact le_refl _

/-- In a sorted list, the `i`-th radius is within `R` exactly if more than `i` bodies are. -/
theorem sorted_count (l : List (K × K)) (h : l.Pairwise (fun a b => a.1 ≤ b.1)) (R : K) (i : Nat)
    (hi : i < l.length) : l[i].1 ≤ R ↔ i < l.countP (fun b => decide (b.1 ≤ R)) := by
  have hf := sorted_filter l h R
  constructor
  · intro hR
    by_contra hc
    have hm : l[i] ∈ l.filter (fun b => decide (b.1 ≤ R)) := by
      rw [List.mem_filter]; exact ⟨List.getElem_mem _, by simpa using hR⟩
    have hall : ∀ j, j ≤ i → ∀ hj : j < l.length, l[j].1 ≤ R := fun j hj hl =>
      le_trans (sorted_le l h hj hi) hR
    have hcount : i + 1 ≤ l.countP (fun b => decide (b.1 ≤ R)) := by
      have h1 : (l.take (i + 1)).countP (fun b => decide (b.1 ≤ R)) = i + 1 := by
        rw [List.countP_eq_length.mpr]
        · rw [List.length_take]; omega
        · intro b hb
          obtain ⟨j, hj, rfl⟩ := List.getElem_of_mem hb
          rw [List.getElem_take]
          rw [List.length_take] at hj
          simpa using hall j (by omega) (by omega)
      have h2 := List.Sublist.countP_le (p := fun b : K × K => decide (b.1 ≤ R))
        (List.take_sublist (i + 1) l)
      omega
    omega
  · intro hc
    have hm : l[i] ∈ l.take (l.countP (fun b => decide (b.1 ≤ R))) := by
      rw [List.mem_take_iff_getElem]
      exact ⟨i, by omega, rfl⟩
    rw [← hf, List.mem_filter] at hm
    simpa using hm.2

theorem enclosed_take (l : List (K × K)) (h : l.Pairwise (fun a b => a.1 ≤ b.1)) (R : K) :
    enclosedMass l R = ((l.take (l.countP (fun b => decide (b.1 ≤ R)))).map (·.2)).sum := by
  rw [enclosedMass, sorted_filter l h R]

/-- The cumulative mass at a point never exceeds the enclosed mass. -/
theorem cum_le_enclosed (l : List (K × K)) (h : l.Pairwise (fun a b => a.1 ≤ b.1))
    (hm : ∀ b ∈ l, 0 ≤ b.2) (R : K) (i : Nat) (hi : i < l.length) (hR : l[i].1 ≤ R) :
    ((l.take (i + 1)).map (·.2)).sum ≤ enclosedMass l R := by
  rw [enclosed_take l h R]
  have hc := (sorted_count l h R i hi).mp hR
  rw [List.map_take, List.map_take]
  exact cum_sum_mono _ (by simpa using fun x y hxy => hm (y, x) hxy) hc

/-- At the last body within `R` the cumulative mass is the enclosed mass. -/
theorem cum_last (l : List (K × K)) (h : l.Pairwise (fun a b => a.1 ≤ b.1)) (R : K)
    (b : K × K) (hb : b ∈ l) (hR : b.1 ≤ R) :
    ∃ k, ∃ hk : k < l.length, l[k].1 ≤ R ∧ b.1 ≤ l[k].1 ∧
      ((l.take (k + 1)).map (·.2)).sum = enclosedMass l R := by
  obtain ⟨i, hi, rfl⟩ := List.getElem_of_mem hb
  have hc := (sorted_count l h R i hi).mp hR
  have hlen : l.countP (fun b => decide (b.1 ≤ R)) ≤ l.length := List.countP_le_length
  obtain ⟨c, hcc⟩ : ∃ c, c = l.countP (fun b => decide (b.1 ≤ R)) := ⟨_, rfl⟩
  rw [← hcc] at hc hlen
  refine ⟨c - 1, by omega, ?_, ?_, ?_⟩
  · rw [sorted_count l h R (c - 1) (by omega), ← hcc]; omega
  · exact sorted_le l h (by omega) (by omega)
  · rw [enclosed_take l h R, ← hcc, show c - 1 + 1 = c by omega]

end HBT

namespace HBT
open HBT.Model HBT.Spec
variable {K : Type} [Field K] [LinearOrder K] [IsStrictOrderedRing K]

theorem profPoint_eq (soft : K) (p : K × K) :
    profPoint soft p = ⟨resolved soft p.1, p.2, p.2 / resolved soft p.1⟩ := by
  have h : (if p.1 < soft then soft else p.1) = resolved soft p.1 := by
    unfold resolved
    split
    · exact (max_eq_right (le_of_lt ‹_›)).symm
    · exact (max_eq_left (not_lt.mp ‹_›)).symm
  simp only [profPoint, h]

theorem profileOf_length (sort : List (K × K) → List (K × K)) (soft : K) (bs : List (K × K)) :
    (profileOf sort soft bs).length = (sort bs).length := by
  simp [profileOf, cumulate_length]

theorem profileOf_getElem (sort : List (K × K) → List (K × K)) (soft : K) (bs : List (K × K))
    (i : Nat) (h : i < (sort bs).length) :
    (profileOf sort soft bs)[i]'(by rw [profileOf_length]; exact h)
      = ⟨resolved soft (sort bs)[i].1, (((sort bs).take (i + 1)).map (·.2)).sum,
          (((sort bs).take (i + 1)).map (·.2)).sum / resolved soft (sort bs)[i].1⟩ := by
  simp only [profileOf, List.getElem_map, profPoint_eq, cumulate_getElem 0 _ i h, zero_add]

/-- Everything about the outermost point above the threshold. `k` is the last index of a sorted
list at which the cumulative mass exceeds `rho * R³`. -/
theorem outermost_boundary (l : List (K × K)) (h : l.Pairwise (fun a b => a.1 ≤ b.1))
    (hm : ∀ b ∈ l, 0 ≤ b.2) (soft rho x : K) (hsoft : 0 ≤ soft) (hrho : 0 < rho)
    (k : Nat) (hk : k < l.length)
    (hover : rho * resolved soft l[k].1 ^ 3 < ((l.take (k + 1)).map (·.2)).sum)
    (hlast : ∀ j, k < j → ∀ hj : j < l.length,
      ¬ rho * resolved soft l[j].1 ^ 3 < ((l.take (j + 1)).map (·.2)).sum)
    (hx : 0 ≤ x) (hx3 : rho * x ^ 3 = ((l.take (k + 1)).map (·.2)).sum) :
    enclosedMass l (resolved soft l[k].1) = ((l.take (k + 1)).map (·.2)).sum ∧
    resolved soft l[k].1 < x ∧
    (∀ r, resolved soft l[k].1 ≤ r → r < x → Overdense l rho r) ∧
    ∀ r, x ≤ r → ¬ Overdense l rho r := by
  have hs : soft ≤ resolved soft l[k].1 := le_max_right _ _
  have hr : l[k].1 ≤ resolved soft l[k].1 := le_max_left _ _
  have hR0 : 0 ≤ resolved soft l[k].1 := le_trans hsoft hs
  -- the last index within a radius
  have hlastIdx : ∀ r, resolved soft l[k].1 ≤ r → ∃ j, ∃ hj : j < l.length, k ≤ j ∧
      resolved soft l[j].1 ≤ r ∧ ((l.take (j + 1)).map (·.2)).sum = enclosedMass l r := by
    intro r hRr
    have hc := (sorted_count l h r k hk).mp (le_trans hr hRr)
    have hlen : l.countP (fun b => decide (b.1 ≤ r)) ≤ l.length := List.countP_le_length
    obtain ⟨c, hcc⟩ : ∃ c, c = l.countP (fun b => decide (b.1 ≤ r)) := ⟨_, rfl⟩
    rw [← hcc] at hc hlen
    refine ⟨c - 1, by omega, by omega, ?_, ?_⟩
    · refine max_le ?_ (le_trans hs hRr)
      rw [sorted_count l h r (c - 1) (by omega), ← hcc]; omega
    · rw [enclosed_take l h r, ← hcc, show c - 1 + 1 = c by omega]
  have hcum : ∀ j, k ≤ j → ((l.take (k + 1)).map (·.2)).sum ≤ ((l.take (j + 1)).map (·.2)).sum := by
    intro j hj
    rw [List.map_take, List.map_take]
    exact cum_sum_mono _ (by simpa using fun x y hxy => hm (y, x) hxy) (by omega)
  have hcube : ∀ a b : K, 0 ≤ a → a ≤ b → rho * a ^ 3 ≤ rho * b ^ 3 := fun a b ha hab =>
    mul_le_mul_of_nonneg_left (pow_le_pow_left₀ ha hab 3) (le_of_lt hrho)
  have hRx : resolved soft l[k].1 < x := by
    by_contra hc
    have := hcube _ _ hx (not_lt.mp hc)
    rw [hx3] at this
    exact absurd hover (not_lt.mpr this)
  refine ⟨?_, hRx, ?_, ?_⟩
  · obtain ⟨j, hj, hkj, hjr, hje⟩ := hlastIdx _ (le_refl _)
    rcases Nat.lt_or_eq_of_le hkj with hlt | heq
    · exfalso
      apply hlast j hlt hj
      have h1 := hcube _ _ (le_trans hsoft (le_max_right l[j].1 soft)) hjr
      exact lt_of_le_of_lt h1 (lt_of_lt_of_le hover (hcum j hkj))
    · subst heq; exact hje.symm
  · intro r hr1 hr2
    have h1 := cum_le_enclosed l h hm r k hk (le_trans hr hr1)
    unfold Overdense
    refine lt_of_lt_of_le ?_ h1
    rw [← hx3]
    exact mul_lt_mul_of_pos_left (pow_lt_pow_left₀ hr2 (le_trans hR0 hr1) (by norm_num)) hrho
  · intro r hxr
    have hRr : resolved soft l[k].1 ≤ r := le_of_lt (lt_of_lt_of_le hRx hxr)
    obtain ⟨j, hj, hkj, hjr, hje⟩ := hlastIdx r hRr
    unfold Overdense
    rw [not_lt, ← hje]
    rcases Nat.lt_or_eq_of_le hkj with hlt | heq
    · exact le_trans (not_lt.mp (hlast j hlt hj))
        (hcube _ _ (le_trans hsoft (le_max_right l[j].1 soft)) hjr)
    · subst heq
      rw [← hx3]
      exact hcube _ _ hx hxr

/-- The scan from the outside stops at the last point above the threshold. -/
theorem overdensityScan_split (cbrt : K → K) (rho : K) (old : K × K) (l : List (ProfPoint K)) :
    ((∀ p ∈ l, ¬ rho * p.r ^ 3 < p.m) ∧ overdensityScan cbrt rho old l = old) ∨
    ∃ far p near, l = far ++ p :: near ∧ rho * p.r ^ 3 < p.m ∧ (∀ q ∈ far, ¬ rho * q.r ^ 3 < q.m) ∧
      overdensityScan cbrt rho old l = (p.m, cbrt (p.m / rho)) := by
  induction l with
  | nil => exact Or.inl ⟨by simp, rfl⟩
  | cons p l ih =>
    have hp3 : rho * p.r * p.r * p.r = rho * p.r ^ 3 := by ring
    by_cases hp : rho * p.r ^ 3 < p.m
    · refine Or.inr ⟨[], p, l, rfl, hp, by simp, ?_⟩
      rw [overdensityScan, if_pos (by rw [hp3]; exact hp)]
    · have he : overdensityScan cbrt rho old (p :: l) = overdensityScan cbrt rho old l := by
        rw [overdensityScan, if_neg (by rw [hp3]; exact hp)]
      rw [he]
      rcases ih with ⟨h1, h2⟩ | ⟨far, q, near, h1, h2, h3, h4⟩
      · refine Or.inl ⟨?_, h2⟩
        intro q hq
        rcases List.mem_cons.mp hq with rfl | hq
        · exact hp
        · exact h1 q hq
      · refine Or.inr ⟨p :: far, q, near, by rw [h1]; rfl, h2, ?_, h4⟩
        intro s hs
        rcases List.mem_cons.mp hs with rfl | hs
        · exact hp
        · exact h3 s hs

/-- The same in terms of indices of the profile. -/
theorem overdensityProfile_index (cbrt : K → K) (rho : K) (old : K × K) (l : List (ProfPoint K)) :
    ((∀ p ∈ l, ¬ rho * p.r ^ 3 < p.m) ∧ overdensityProfile cbrt rho old l = old) ∨
    ∃ k, ∃ hk : k < l.length, rho * l[k].r ^ 3 < l[k].m ∧
      (∀ j, k < j → ∀ hj : j < l.length, ¬ rho * l[j].r ^ 3 < l[j].m) ∧
      overdensityProfile cbrt rho old l = (l[k].m, cbrt (l[k].m / rho)) := by
  rcases overdensityScan_split cbrt rho old l.reverse with ⟨h1, h2⟩ | ⟨far, p, near, h1, h2, h3, h4⟩
  · exact Or.inl ⟨fun p hp => h1 p (List.mem_reverse.mpr hp), h2⟩
  · right
    have hl : l = near.reverse ++ p :: far.reverse := by
      have := congrArg List.reverse h1
      simpa using this
    have hk : near.length < l.length := by rw [hl]; simp
    have hp : l[near.length] = p := by
      simp [hl]
    refine ⟨near.length, hk, by rw [hp]; exact h2, ?_, by rw [hp]; exact h4⟩
    intro j hj hjl
    apply h3
    have : l[j] ∈ l.drop (near.length + 1) := by
      rw [List.mem_drop_iff_getElem]
      exact ⟨j - (near.length + 1), by omega, by congr 1; omega⟩
    have hd : l.drop (near.length + 1) = far.reverse := by
      rw [hl, List.drop_append]
      simp
    rw [hd] at this
    exact List.mem_reverse.mp this

end HBT
