import Verif.Model.Outcome
import Verif.Spec.Types
/-!
# Recursion over the nesting hierarchy

`SubhaloMasker_t::Mask` (src/subhalo_tracking.cpp:801-821), `Subhalo_t::RecursiveUnbind`
(src/subhalo_unbind.cpp:432-447) and `SubhaloSnapshot_t::MergeRecursive` (src/subhalo_merge.cpp:222-232)
have the same shape: something is remembered on entry, each nested subhalo is visited in the order
of the nest, each visit possibly followed by an action, and at the end the subhalo itself is treated.
-/
namespace HBT.Model
variable {σ L : Type}

/-- The loop over the nest: `rec` is the recursive call, `after` the action that follows it. A negative
index is undefined. src/subhalo_tracking.cpp:804-805, src/subhalo_unbind.cpp:435-443, src/subhalo_merge.cpp:224-228. -/
def visitKids (rec after : Nat → σ → Outcome σ) : List Int → σ → Outcome σ
  | [], st => .ok st
  | k :: ks, st =>
    if k < 0 then .ub
    else do
      let st ← rec k.toNat st
      let st ← after k.toNat st
      visitKids rec after ks st

/-- The recursive function. `nest` reads the nest of a subhalo, `enter` gives the local variables,
`after` is the action after each nested subhalo, `leave` the last action. `fuel` bounds the depth of
the recursion; reaching it is `diverge`.
src/subhalo_tracking.cpp:801-821, src/subhalo_unbind.cpp:432-447, src/subhalo_merge.cpp:222-232. -/
def visit (nest : Nat → σ → Outcome (List Int)) (enter : Nat → σ → Outcome L)
    (after : Nat → Nat → σ → Outcome σ) (leave : L → Nat → σ → Outcome σ) : Nat → Nat → σ → Outcome σ
  | 0, _, _ => .diverge
  | fuel + 1, id, st => do
    let loc ← enter id st
    let ks ← nest id st
    let st ← visitKids (visit nest enter after leave fuel) (after id) ks st
    leave loc id st

/-- Iterations of a parallel loop in the order `order`. For example src/subhalo_tracking.cpp:826-840. -/
def runAll (act : Nat → σ → Outcome σ) : List Nat → σ → Outcome σ
  | [], st => .ok st
  | i :: is, st => do
    let st ← act i st
    runAll act is st

end HBT.Model
