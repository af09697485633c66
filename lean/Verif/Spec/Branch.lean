import Mathlib.Data.List.Dedup
import Mathlib.Data.List.Count
/-!
# Specification of infall branches

At one snapshot, `host id` is the progenitor halo that holds the particle `id`, if any. A branch of a
target halo is a progenitor halo holding at least one of the particles still looked for; the main
branch is one holding the most.
-/
namespace HBT.Spec

/-- The branches, each once. -/
def branches (host : Int → Option Int) (ids : List Int) : List Int := (ids.filterMap host).dedup

/-- `main` is a branch holding as many of the particles as any. -/
def IsMain (host : Int → Option Int) (ids : List Int) (main : Int) : Prop :=
  main ∈ branches host ids ∧
    ∀ b ∈ branches host ids, (ids.filterMap host).count b ≤ (ids.filterMap host).count main

/-- The branches other than the main one. -/
def sideBranches (host : Int → Option Int) (ids : List Int) : Nat := (branches host ids).length - 1

end HBT.Spec
