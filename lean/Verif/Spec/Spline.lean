import Mathlib.Algebra.Order.Field.Basic
import Mathlib.Algebra.BigOperators.Group.List.Basic
/-!
# Specification: the potential of a softened body

Specification for C77.
-/
namespace HBT.Spec
variable {K : Type} [Field K] [LinearOrder K]

/-- The spline of Gadget: a unit mass with softening length `h` has the potential `-splineKernel (r / h) / h` at distance `r`, the Newtonian one from `h` on. -/
def splineKernel (u : K) : K :=
  if u < 1 / 2 then 14 / 5 - 16 / 3 * u ^ 2 + 48 / 5 * u ^ 4 - 32 / 5 * u ^ 5
  else if u < 1 then 16 / 5 - 1 / (15 * u) - 32 / 3 * u ^ 2 + 16 * u ^ 3 - 48 / 5 * u ^ 4 + 32 / 15 * u ^ 5
  else 1 / u

/-- The (positive) potential of bodies of masses `m p` at distances `dist p`, for the numbers `p` of a list, with softening length `h`, in units with `G = 1`. -/
def directSum (h : K) (m dist : Nat → K) (l : List Nat) : K := (l.map (fun p => m p * splineKernel (dist p / h) / h)).sum

/-- `sqrt` is a square root. -/
def IsRoot (sqrt : K → K) : Prop := ∀ x, 0 ≤ x → 0 ≤ sqrt x ∧ sqrt x * sqrt x = x

end HBT.Spec
