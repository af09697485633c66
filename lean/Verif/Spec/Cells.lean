import Mathlib.Algebra.Order.Field.Basic
/-!
# Cells of the box

Specification for the placement of groups (C63).
-/
namespace HBT.Spec

/-- `[0, B)` is divided into `n` equal slices. `i` is the number of the slice that holds `x`; outside of the box it is the
slice next to `x`. -/
structure InSlice {K : Type} [Field K] [LinearOrder K] (B : K) (n : Nat) (x : K) (i : Nat) : Prop where
  lt : i < n
  lower : 0 ≤ x → i * (B / n) ≤ x
  upper : x < B → x < (i + 1) * (B / n)
  below : x < 0 → i = 0
  above : B ≤ x → i + 1 = n

/-- `r` is the number of the cell of `x` in a box that is divided into `n0 × n1 × n2` equal cells, numbered with the last axis fastest. -/
def CellOf {K : Type} [Field K] [LinearOrder K] (B : K) (n0 n1 n2 : Nat) (x : Fin 3 → K) (r : Nat) : Prop :=
  ∃ i j k, InSlice B n0 (x 0) i ∧ InSlice B n1 (x 1) j ∧ InSlice B n2 (x 2) k ∧ r = (i * n1 + j) * n2 + k

end HBT.Spec
