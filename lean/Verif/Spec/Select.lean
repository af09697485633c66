import Mathlib.Order.Defs.LinearOrder
/-!
# Specification vocabulary: order statistics
-/
namespace HBT.Spec

/-- `v` is the `k`-th smallest entry (counting from 1) of `xs`: it occurs in `xs`, fewer than `k`
entries are smaller and at least `k` entries are not larger. -/
def KthSmallest {α : Type} [LinearOrder α] (xs : List α) (k : Nat) (v : α) : Prop :=
  v ∈ xs ∧ xs.countP (fun x => decide (x < v)) < k ∧ k ≤ xs.countP (fun x => decide (x ≤ v))

end HBT.Spec
