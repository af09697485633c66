import Verif.Spec.Types
/-!
# Specification vocabulary for the main loop
-/
namespace HBT.Spec

/-- A particle id the program can look up in a snapshot with the particle ids `ids`: the particle is there, or (in builds with
gas and stars, where particles can disappear) its id lies between those of two particles that are. -/
def Known (dmOnly : Bool) (ids : List Int) (x : Int) : Prop :=
  x ∈ ids ∨ (dmOnly = false ∧ (∃ i ∈ ids, i ≤ x) ∧ ∃ i ∈ ids, x ≤ i)

end HBT.Spec
