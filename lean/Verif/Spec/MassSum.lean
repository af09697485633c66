import Mathlib.Algebra.BigOperators.Group.List.Basic
import Mathlib.Algebra.Order.BigOperators.Group.List
/-!
# Ways of adding up masses

The program adds up the masses of the bound particles of a subhalo in two ways: one after the other in single precision, and with
several threads in double precision, in an order that depends on the energies and the threads. With floating point numbers the
results differ. The theorems about subhaloes, snapshots and runs hold for any ways of adding. In an additive monoid all are the sum.
-/
namespace HBT

/-- Ways of adding up a list of masses. Nothing is assumed but that a single mass is not changed. -/
class MassSum (K : Type) extends Zero K where
  /-- as in `CountParticles` -/
  count : List K → K
  /-- as in `AverageVelocity`; the first argument stands for the order and the grouping of the sum -/
  average : Nat → List K → K
  count_nil : count [] = 0
  count_single : ∀ m, count [m] = m

/-- Exact addition. -/
instance (priority := 100) exactSum {K : Type} [AddMonoid K] : MassSum K where
  count l := l.sum
  average _ l := l.sum
  count_nil := rfl
  count_single m := by simp

/-- `m` is a result of adding up `l`. -/
def IsSum {K : Type} [MassSum K] (l : List K) (m : K) : Prop := m = MassSum.count l ∨ ∃ way, m = MassSum.average way l

theorem isSum_iff {K : Type} [AddMonoid K] {l : List K} {m : K} : IsSum l m ↔ m = l.sum :=
  ⟨fun h => h.elim id (fun ⟨_, h⟩ => h), Or.inl⟩

/-- Adding up masses none of which is negative does not give a negative result. -/
def NonnegSums (K : Type) [LE K] [MassSum K] : Prop := ∀ (l : List K) (m : K), (∀ x ∈ l, 0 ≤ x) → IsSum l m → 0 ≤ m

theorem nonnegSums_exact {K : Type} [AddCommMonoid K] [PartialOrder K] [IsOrderedAddMonoid K] : NonnegSums K := fun l m hl h => by
  rw [isSum_iff.1 h]
  exact List.sum_nonneg hl

instance {K : Type} [AddMonoid K] [DecidableEq K] (l : List K) (m : K) : Decidable (IsSum l m) := decidable_of_iff' _ isSum_iff

end HBT
