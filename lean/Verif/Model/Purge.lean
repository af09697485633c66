import Verif.Model.Outcome
import Verif.Spec.Types
/-!
# Model of `PurgeMostBoundParticles`, src/subhalo_tracking.cpp:562-603

Called by `UpdateTracks` (lines 886-888) in builds with `INCLUSIVE_MASS`, in which subhaloes share the particles of the
subhaloes inside of them; see `Model/Inclusive` for the main loop of such builds (`Model/Main` is of the build without it).
-/
namespace HBT.Model
variable {K D : Type}

/-- The loop over the particles, src/subhalo_tracking.cpp:585-597, from place `i`: where the loop swaps and breaks. `excl` is
`ExclusionList`. The comparison of addresses is that of places. -/
def purgeFind (excl : List Int) : Nat → List (Particle D) → Option Nat
  | _, [] => none
  | i, p :: ps =>
    if p.id ∉ excl then
      if i ≠ 0 then some i
      else purgeFind excl (i + 1) ps
    else purgeFind excl (i + 1) ps

/-- src/subhalo_tracking.cpp:585-597: `d` stands for the coordinates `ComovingMostBoundPosition`, `PhysicalMostBoundVelocity`. -/
def purgeOne (excl : List Int) (s : Sub K D) (d : D) : Outcome (Sub K D × D) :=
  match purgeFind excl 0 s.particles with
  | none => .ok (s, d)
  | some i => do
    let p ← Outcome.get s.particles i
    let p0 ← Outcome.get s.particles 0
    let l ← Outcome.set s.particles 0 p
    let l ← Outcome.set l i p0
    .ok ({ s with particles := l }, p.data)

/-- src/subhalo_tracking.cpp:580-601, over the members still to come (the group from its end). The state is the subhaloes and their
most-bound coordinates. -/
def purgeMembers : List Nat → List Int → List (Sub K D) × List D → Outcome (List (Sub K D) × List D)
  | [], _, st => .ok st
  | c :: cs, excl, st => do
    let s ← Outcome.get st.1 c
    let d ← Outcome.get st.2 c
    if 1 < s.nbound then do
      let r ← purgeOne excl s d
      let subs ← Outcome.set st.1 c r.1
      let ds ← Outcome.set st.2 c r.2
      purgeMembers cs (r.1.particles.map Particle.id ++ excl) (subs, ds)
    else purgeMembers cs excl st

/-- The loop over groups, src/subhalo_tracking.cpp:570-602: `groups` begins with the field subhaloes (group -1). Groups have no subhalo in
common, so the iterations may run in any order; here they run in sequence. -/
def purge : List (List Nat) → List (Sub K D) × List D → Outcome (List (Sub K D) × List D)
  | [], st => .ok st
  | g :: gs, st => do
    let st ← purgeMembers g.reverse [] st
    purge gs st

end HBT.Model
