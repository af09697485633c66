import Mathlib.Algebra.Field.Basic
import Mathlib.Algebra.BigOperators.Group.List.Basic
/-!
# Specification of counts by type, second moments and kinematic averages
-/
namespace HBT.Spec
variable {K : Type} [Field K]

/-- How many of the (type, mass) pairs have type `t`. -/
def typeCount (t : Int) (ps : List (Int × K)) : Nat := ps.countP (fun p => p.1 == t)

/-- Their total mass. -/
def typeMass (t : Int) (ps : List (Int × K)) : K := ((ps.filter (fun p => p.1 == t)).map (·.2)).sum

/-- Inner product. -/
def dot (x y : Fin 3 → K) : K := x 0 * y 0 + x 1 * y 1 + x 2 * y 2

/-- Vector product. -/
def cross (x y : Fin 3 → K) : Fin 3 → K
  | 0 => x 1 * y 2 - x 2 * y 1
  | 1 => x 2 * y 0 - x 0 * y 2
  | 2 => x 0 * y 1 - x 1 * y 0

/-- The value along direction `n` of the symmetric tensor with entries xx, xy, xz, yy, yz, zz. These
values determine the tensor. -/
def along (T : Fin 6 → K) (n : Fin 3 → K) : K :=
  T 0 * (n 0 * n 0) + T 1 * (2 * (n 0 * n 1)) + T 2 * (2 * (n 0 * n 2)) + T 3 * (n 1 * n 1)
    + T 4 * (2 * (n 1 * n 2)) + T 5 * (n 2 * n 2)

/-- Mass-weighted sum of a quantity over (mass, x) pairs. -/
def weightedSum {α : Type} (f : α → K) (ps : List (K × α)) : K := (ps.map (fun p => p.1 * f p.2)).sum

/-- Mass-weighted average of a quantity. -/
def massAverage {α : Type} (mass f : α → K) (l : List α) : K :=
  (l.map (fun p => mass p * f p)).sum / (l.map mass).sum

end HBT.Spec
