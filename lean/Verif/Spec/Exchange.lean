import Verif.Spec.Types
import Mathlib.Data.List.Basic
/-!
# Specification vocabulary: particle queries
-/
namespace HBT.Spec
variable {D : Type}

/-- The current state of particle `p` in a snapshot with particles `all`: the record with the same
id if there is one; otherwise the particle is flagged with the null id. -/
def currentOf (all : List (Particle D)) (p : Particle D) : Particle D :=
  match all.find? (fun q => q.id == p.id) with
  | some q => q
  | none => ⟨nullId, p.data⟩

/-- All particles of a snapshot spread over `P` processes. -/
def allParticles {P : Nat} (snap : Fin P → List (Particle D)) : List (Particle D) :=
  (List.ofFn snap).flatten

/-- The snapshot is partitioned by id: process `r` holds distinct non-negative ids in
`[bounds[r], bounds[r+1])`, and the bounds ascend. -/
structure PartitionedById {P : Nat} (bounds : List Int) (snap : Fin P → List (Particle D)) : Prop where
  length : bounds.length = P + 1
  ascending : bounds.Pairwise (· ≤ ·)
  inRange : ∀ (r : Fin P), ∀ q ∈ snap r, ∀ lo hi, bounds[r.val]? = some lo →
    bounds[r.val + 1]? = some hi → lo ≤ q.id ∧ q.id < hi
  distinct : ∀ r, ((snap r).map Particle.id).Nodup
  nonneg : ∀ r, ∀ q ∈ snap r, 0 ≤ q.id

end HBT.Spec
