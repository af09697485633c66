import Mathlib.Algebra.Order.Field.Basic
import Mathlib.Algebra.BigOperators.Group.List.Basic
/-!
# Specification of radial profiles

A profile is a bag of bodies, each with its distance from the centre and its mass.
-/
namespace HBT.Spec
variable {K : Type} [Field K] [LinearOrder K]

/-- Total mass of the bodies at distance `R` or less. -/
def enclosedMass (bodies : List (K × K)) (R : K) : K :=
  ((bodies.filter (fun b => decide (b.1 ≤ R))).map (·.2)).sum

/-- The radius at which a body counts: distances below the resolution limit are raised to it. -/
def resolved (soft r : K) : K := max r soft

/-- How many bodies count at radius `R` or less. -/
def countWithin (soft : K) (bodies : List (K × K)) (R : K) : Nat :=
  bodies.countP (fun b => decide (resolved soft b.1 ≤ R))

/-- The mean density inside `R` exceeds the threshold: mass against `rho * R³`. -/
def Overdense (bodies : List (K × K)) (rho R : K) : Prop := rho * R ^ 3 < enclosedMass bodies R

/-- `(v, s)` is the peak of a history that started from `v₀`: the largest value, and the last
snapshot at which it was reached. -/
def PeakOf (v₀ : K) (s₀ : Int) (history : List (Int × K)) (v : K) (s : Int) : Prop :=
  v₀ ≤ v ∧ (∀ e ∈ history, e.2 ≤ v) ∧
    ((v = v₀ ∧ s = s₀ ∧ ∀ e ∈ history, e.2 < v) ∨
      ∃ before after, history = before ++ (s, v) :: after ∧ ∀ e ∈ after, e.2 < v)

end HBT.Spec
