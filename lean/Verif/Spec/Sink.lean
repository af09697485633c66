import Verif.Spec.Average
import Mathlib.Algebra.BigOperators.Fin
/-!
# The core of an object, and when another object has sunk into it
-/
namespace HBT.Spec
variable {K : Type} [Field K]

/-- The length squared of a vector. -/
def norm2 (v : Fin 3 → K) : K := v 0 * v 0 + v 1 * v 1 + v 2 * v 2

/-- The mass-weighted mean of the squared distances from the mass-weighted mean. -/
def massVar (ps : List (K × (Fin 3 → K))) : K :=
  (ps.map (fun p => p.1 * norm2 (fun j => p.2 j - massMean ps j))).sum / massSum ps

/-- `e` leads from `y` to `x` or to a periodic image of `x`, and is at most half a box along every axis. -/
def ShortestWay [LinearOrder K] (B : K) (x y e : Fin 3 → K) : Prop :=
  ∀ j, |e j| ≤ B / 2 ∧ ∃ k : ℤ, e j = x j - y j + k * B

/-- In units of the spread of the positions and of the velocities of the core, the displacement `e` and
the relative velocity `w` add up to less than two. A core without spread absorbs nothing. -/
def Sunk [LinearOrder K] (sqrt : K → K) (xs vs : List (K × (Fin 3 → K))) (e w : Fin 3 → K) : Prop :=
  massVar xs ≠ 0 ∧ massVar vs ≠ 0 ∧
    sqrt (norm2 e) / sqrt (massVar xs) + sqrt (norm2 w) / sqrt (massVar vs) < 2

/-- A square root. -/
def IsSqrt [LinearOrder K] (sqrt : K → K) : Prop := ∀ x, 0 ≤ x → 0 ≤ sqrt x ∧ sqrt x * sqrt x = x

end HBT.Spec
