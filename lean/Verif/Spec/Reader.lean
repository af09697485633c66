import Verif.Spec.Types
import Verif.Spec.Config
/-!
# Specification: what a user reads from the catalogue
-/
namespace HBT.Spec
variable {K D : Type}

/-- The properties of a subhalo (one row of the table), without its lists of particles and nested subhaloes. -/
def properties (s : Sub K D) : Sub K D := { s with particles := [], nested := [] }

/-- Subhalo `j` takes particles before subhalo `i`: it is smaller, or of the same size and first in the catalogue. Subhaloes of
one particle or none do not take part. -/
def Before (parts : List (List Int)) (j i : Nat) : Prop :=
  ∃ p q, parts[j]? = some p ∧ parts[i]? = some q ∧ 1 < p.length ∧ (p.length < q.length ∨ p.length = q.length ∧ j < i)

/-- `out` shares the particles out among the subhaloes `parts`: those with one particle or none keep it, every other one gets, once
each, those of its particles that no subhalo before it has. -/
structure SharedOut (parts out : List (List Int)) : Prop where
  length : out.length = parts.length
  small : ∀ (i : Nat) (p : List Int), parts[i]? = some p → p.length ≤ 1 → out[i]? = some p
  large : ∀ (i : Nat) (p : List Int), parts[i]? = some p → 1 < p.length → ∃ q, out[i]? = some q ∧ q.Nodup ∧
    ∀ x, x ∈ q ↔ x ∈ p ∧ ∀ j p', Before parts j i → parts[j]? = some p' → x ∉ p'

end HBT.Spec
