import Verif.Lemmas.Psort
import Mathlib.Data.List.Basic
import Mathlib.Data.Nat.Basic
import Mathlib.Order.Basic
/-!
# C06: order-statistic selection
-/
namespace HBT.Props
open HBT HBT.Model HBT.Spec
variable {α : Type} [LinearOrder α]

/-- C06. For every array and every `1 ≤ k ≤ n` (duplicates allowed): the call terminates without
touching memory outside the array, the array afterwards is a permutation of the input, the
returned value is the `k`-th smallest entry, it sits at index `k-1`, everything before is not
larger and everything after is not smaller. -/
theorem C06_select (arr : List α) (k : Nat) (h1 : 1 ≤ k) (h2 : k ≤ arr.length) :
    ∃ out v, psort k arr = .ok (out, v) ∧ out.Perm arr ∧ KthSmallest arr k v ∧
      out[k-1]? = some v ∧
      (∀ p x, p < k - 1 → out[p]? = some x → x ≤ v) ∧
      (∀ q x, k - 1 < q → out[q]? = some x → v ≤ x) := by
  obtain ⟨d⟩ : Nonempty α := ⟨arr[0]⟩
  have inv : PInv d k 1 arr.length arr :=
    ⟨by omega, le_refl _, h1, h2, fun p q p1 p2 => by omega, fun p q p1 p2 q1 q2 => by omega,
      Or.inl ⟨h1, h2⟩⟩
  obtain ⟨out, e, po, hL, hR⟩ := psortLoop_ok d k (arr.length + 1) arr 1 arr.length inv
    (by omega) (by omega)
  have hlen := po.length_eq
  have hk : k - 1 < out.length := by omega
  have hv : v1 d out k = out[k-1] := by
    rw [← v1_getElem d out (k-1) hk]; congr 1; omega
  have hbefore : ∀ p x, p < k - 1 → out[p]? = some x → x ≤ v1 d out k := by
    intro p x hp hx
    have := hL (p+1) (by omega) (by omega)
    rw [v1, Nat.add_sub_cancel, hx] at this
    exact this
  have hafter : ∀ q x, k - 1 < q → out[q]? = some x → v1 d out k ≤ x := by
    intro q x hq hx
    have hql : q < out.length := by
      rcases Nat.lt_or_ge q out.length with h | h
      · exact h
      · simp [List.getElem?_eq_none h] at hx
    have := hR (q+1) (by omega) (by omega)
    rw [show v1 d out (q+1) = x by rw [v1, Nat.add_sub_cancel, hx]; rfl] at this
    exact this
  refine ⟨out, v1 d out k, e, po, ⟨?_, ?_, ?_⟩, by simp [hv, hk], hbefore, hafter⟩
  · rw [← po.mem_iff, hv]; exact List.getElem_mem hk
  · rw [← po.countP_eq]
    -- entries smaller than v are all before position k-1
    have hsplit : out = out.take (k-1) ++ out.drop (k-1) := (List.take_append_drop _ _).symm
    rw [hsplit, List.countP_append]
    have hz : (out.drop (k-1)).countP (fun x => decide (x < v1 d out k)) = 0 := by
      rw [List.countP_eq_zero]
      intro x hx
      rw [List.mem_iff_getElem?] at hx
      obtain ⟨i, hi⟩ := hx
      rw [List.getElem?_drop] at hi
      simp only [decide_eq_true_eq, not_lt]
      rcases Nat.eq_zero_or_pos i with h | h
      · subst h
        simp [hk] at hi
        rw [hv, hi]
      · exact hafter _ x (by omega) hi
    rw [← hsplit, hz]
    have := List.countP_le_length (p := fun x => decide (x < v1 d out k)) (l := out.take (k-1))
    rw [List.length_take] at this
    omega
  · rw [← po.countP_eq]
    have hsplit : out = out.take k ++ out.drop k := (List.take_append_drop _ _).symm
    conv_rhs => rw [hsplit]
    rw [List.countP_append]
    have hall : (out.take k).countP (fun x => decide (x ≤ v1 d out k)) = (out.take k).length := by
      rw [List.countP_eq_length]
      intro x hx
      rw [List.mem_iff_getElem?] at hx
      obtain ⟨i, hi⟩ := hx
      have hik : i < k := by
        rcases Nat.lt_or_ge i k with h | h
        · exact h
        · rw [List.getElem?_eq_none (by simp; omega)] at hi
          simp at hi
      rw [List.getElem?_take_of_lt hik] at hi
      simp only [decide_eq_true_eq]
      rcases Nat.lt_or_ge i (k-1) with h | h
      · exact hbefore i x h hi
      · have : i = k - 1 := by omega
        subst this
        simp [hk] at hi
        rw [hv, hi]
    rw [← hsplit, hall, List.length_take]
    omega

/-- The `k`-th smallest value is unique, so `C06_select` determines the result. -/
theorem C06_kth_unique (xs : List α) (k : Nat) (v w : α) (hv : KthSmallest xs k v)
    (hw : KthSmallest xs k w) : v = w := by
  rcases lt_trichotomy v w with h | h | h
  · exfalso
    have : xs.countP (fun x => decide (x ≤ v)) ≤ xs.countP (fun x => decide (x < w)) := by
      apply List.countP_mono_left
      intro x _ hx
      simp only [decide_eq_true_eq] at *
      exact lt_of_le_of_lt hx h
    have h1 := hv.2.2; have h2 := hw.2.1; omega
  · exact h
  · exfalso
    have : xs.countP (fun x => decide (x ≤ w)) ≤ xs.countP (fun x => decide (x < v)) := by
      apply List.countP_mono_left
      intro x _ hx
      simp only [decide_eq_true_eq] at *
      exact lt_of_le_of_lt hx h
    have h1 := hw.2.2; have h2 := hv.2.1; omega

example : psort 3 [5, 1, 4, 1, 3, 9, 7, 7] = .ok ([1, 1, 3, 4, 5, 9, 7, 7], 3) := by decide

end HBT.Props
