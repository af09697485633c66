import Verif.Spec.Basics
import Verif.Model.MyMath
import Mathlib.Data.Nat.Find
import Mathlib.Algebra.BigOperators.Group.List.Basic
/-!
# Helper lemmas on ranges, offsets and sums
-/
namespace HBT
open HBT.Model HBT.Spec

theorem exactCover_of_adjacent {seg : Nat → Nat × Nat} {k n : Nat}
    (h : Adjacent seg k n) : ExactCover seg k n := by
  obtain ⟨hle, h0, hstep, hend, hz⟩ := h
  intro x hx
  have hk : 0 < k := by
    rcases Nat.eq_zero_or_pos k with hk | hk
    · have := hz hk; omega
    · exact hk
  have mono : ∀ j, j < k → ∀ i, i < j → (seg i).2 ≤ (seg j).1 := by
    intro j
    induction j with
    | zero => intro _ i hi; omega
    | succ j ih =>
      intro hj i hi
      have hs := hstep j hj
      rcases Nat.lt_or_eq_of_le (Nat.lt_succ_iff.mp hi) with hlt | heq
      · have := ih (by omega) i hlt
        have := hle j (by omega)
        omega
      · subst heq; omega
  have hex : ∃ i, i < k ∧ (seg i).1 ≤ x ∧ x < (seg i).2 := by
    classical
    have hP : ∃ i, i < k ∧ x < (seg i).2 := ⟨k-1, by omega, by rw [hend hk]; exact hx⟩
    refine ⟨Nat.find hP, (Nat.find_spec hP).1, ?_, (Nat.find_spec hP).2⟩
    rcases Nat.eq_zero_or_pos (Nat.find hP) with hz | hp
    · rw [hz, h0 hk]; omega
    · have hmin := Nat.find_min hP (m := Nat.find hP - 1) (by omega)
      have hlt := (Nat.find_spec hP).1
      have hs := hstep (Nat.find hP - 1) (by omega)
      have he : Nat.find hP - 1 + 1 = Nat.find hP := by omega
      rw [he] at hs
      have : ¬ x < (seg (Nat.find hP - 1)).2 := fun hc => hmin ⟨by omega, hc⟩
      omega
  obtain ⟨i, hi⟩ := hex
  refine ⟨i, hi, ?_⟩
  intro j hj
  rcases Nat.lt_trichotomy i j with h | h | h
  · have := mono j hj.1 i h; omega
  · exact h.symm
  · have := mono i hi.1 j h; omega

theorem compileOffsetsFrom_total (o : Nat) (cs : List Nat) :
    (compileOffsetsFrom o cs).2 = o + cs.sum := by
  induction cs generalizing o with
  | nil => simp [compileOffsetsFrom]
  | cons c cs ih => simp [compileOffsetsFrom, ih]; omega

theorem compileOffsetsFrom_length (o : Nat) (cs : List Nat) :
    (compileOffsetsFrom o cs).1.length = cs.length := by
  induction cs generalizing o with
  | nil => simp [compileOffsetsFrom]
  | cons c cs ih => simp [compileOffsetsFrom, ih]

theorem compileOffsetsFrom_get (o : Nat) (cs : List Nat) (i : Nat) (h : i < cs.length) :
    (compileOffsetsFrom o cs).1[i]? = some (o + (cs.take i).sum) := by
  induction cs generalizing o i with
  | nil => simp at h
  | cons c cs ih =>
    cases i with
    | zero => simp [compileOffsetsFrom]
    | succ i =>
      simp only [List.length_cons, Nat.succ_lt_succ_iff] at h
      simp [compileOffsetsFrom, ih _ _ h]; omega

theorem sum_take_succ' (cs : List Nat) (i : Nat) (h : i < cs.length) :
    (cs.take (i+1)).sum = (cs.take i).sum + cs[i] := by
  rw [List.take_succ_eq_append_getElem h, List.sum_append, List.sum_singleton]

theorem sum_take_mono (cs : List Nat) {i j : Nat} (h : i ≤ j) :
    (cs.take i).sum ≤ (cs.take j).sum := by
  induction cs generalizing i j with
  | nil => simp
  | cons c cs ih =>
    cases i with
    | zero => simp
    | succ i =>
      cases j with
      | zero => omega
      | succ j => simp; exact ih (by omega)

theorem adjacent_prefixSums (cs : List Nat) :
    Adjacent (fun i => ((cs.take i).sum, (cs.take (i+1)).sum)) cs.length cs.sum := by
  refine ⟨fun i _ => sum_take_mono cs (by omega), fun _ => by simp, fun i _ => rfl, ?_, ?_⟩
  · intro h
    have : cs.length - 1 + 1 = cs.length := by omega
    simp [this]
  · intro h
    have : cs = [] := List.length_eq_zero_iff.mp h
    simp [this]

end HBT
