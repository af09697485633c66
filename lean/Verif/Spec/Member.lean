import Verif.Spec.Types
import Mathlib.Data.List.Basic
import Mathlib.Order.Basic
/-!
# Specification vocabulary for groups of subhaloes
-/
namespace HBT.Spec
variable {K D : Type}

/-- The indices of the subhaloes with host `h` (without the orphans, i.e. those with at most one
bound particle, if `orphans` is false), in list order. -/
def membersOf (orphans : Bool) (subs : List (Sub K D)) (h : Int) : List Nat :=
  (List.range subs.length).filter (fun i =>
    match subs[i]? with
    | some s => decide (s.hostHaloId = h) && (orphans || decide (1 < s.nbound))
    | none => false)

/-- Subhalo `i` is at least as massive as subhalo `j`. -/
def NotLighter [LE K] (subs : List (Sub K D)) (i j : Nat) : Prop :=
  ∀ a b, subs[i]? = some a → subs[j]? = some b → b.mbound ≤ a.mbound

/-- What `std::sort` by decreasing mass guarantees: the same entries, in an order of non-increasing
mass. Nothing is assumed about entries of equal mass. -/
def SortsByMass [LE K] (sort : List (Sub K D) → List Nat → List Nat) : Prop :=
  ∀ subs l, (∀ i ∈ l, i < subs.length) →
    (sort subs l).Perm l ∧ (sort subs l).Pairwise (NotLighter subs)

end HBT.Spec
