import Mathlib.Data.Nat.Notation
import Mathlib.Logic.ExistsUnique
/-!
# Specification vocabulary shared by several properties

Nothing here mentions the model.
-/
namespace HBT.Spec

/-- The half-open integer ranges `seg 0, …, seg (k-1)` lie next to each other,
start at `0` and end at `n`. -/
def Adjacent (seg : Nat → Nat × Nat) (k n : Nat) : Prop :=
  (∀ i, i < k → (seg i).1 ≤ (seg i).2) ∧
  (0 < k → (seg 0).1 = 0) ∧
  (∀ i, i + 1 < k → (seg i).2 = (seg (i+1)).1) ∧
  (0 < k → (seg (k-1)).2 = n) ∧
  (k = 0 → n = 0)

/-- Each `x < n` lies in exactly one of the `k` half-open ranges. -/
def ExactCover (seg : Nat → Nat × Nat) (k n : Nat) : Prop :=
  ∀ x, x < n → ∃! i, i < k ∧ (seg i).1 ≤ x ∧ x < (seg i).2

end HBT.Spec
