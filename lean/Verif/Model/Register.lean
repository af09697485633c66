import Verif.Model.Outcome
import Verif.Model.Mpi
import Verif.Spec.Types
/-!
# Model of `RegisterNewTracks` and `UpdateTrack`

src/subhalo_tracking.cpp:535-561 and 11-21. The membership table rebuilt inside `RegisterNewTracks`
(line 550) is modelled in `Model/Member.lean`.
-/
namespace HBT.Model
variable {K D : Type}

/-- `if(i!=NumSubNew) Subhalos[NumSubNew]=move(Subhalos[i])`, src/subhalo_tracking.cpp:544-545. -/
def moveSub (i new : Nat) (s : Sub K D) (subs : List (Sub K D)) : Outcome (List (Sub K D)) :=
  if i ≠ new then Outcome.set subs new s else .ok subs

/-- src/subhalo_tracking.cpp:540-548: keep the new subhaloes with more than one bound particle. `n` iterations are left,
the next one looks at position `i`; `new` is `NumSubNew`. -/
def compactNew : Nat → Nat → Nat → List (Sub K D) → Outcome (Nat × List (Sub K D))
  | 0, _, new, subs => .ok (new, subs)
  | n + 1, i, new, subs => do
    let s ← Outcome.get subs i
    if s.nbound > 1 then do
      let subs ← moveSub i new s subs
      compactNew n (i + 1) (new + 1) subs
    else compactNew n (i + 1) new subs

/-- src/subhalo_tracking.cpp:559-560: `n` subhaloes from position `i` on get the ids `offset, offset+1, ...`. -/
def assignTrackIds : Nat → Nat → Int → List (Sub K D) → Outcome (List (Sub K D))
  | 0, _, _, subs => .ok subs
  | n + 1, i, offset, subs => do
    let s ← Outcome.get subs i
    let subs ← Outcome.set subs i { s with trackId := offset }
    assignTrackIds n (i + 1) (offset + 1) subs

/-- src/subhalo_tracking.cpp:538-552 on one rank: the compacted list and `NumSubOld`. A birth count larger than the list
would make `NumSubOld` negative; the model calls that undefined. -/
def registerLocal (subs : List (Sub K D)) (nBirth : Nat) : Outcome (List (Sub K D) × Nat) :=
  if nBirth ≤ subs.length then do
    let old := subs.length - nBirth
    let (new, arr) ← compactNew nBirth old old subs
    .ok (arr.take new, old)
  else .ub

/-- `MPI_Scan` with `MPI_SUM`: the inclusive prefix sum at rank `r`.
Part of `registerNewTracks`, src/subhalo_tracking.cpp:535-561. -/
def scanSum {P : Nat} (x : Fin P → Nat) (r : Fin P) : Nat := ((List.ofFn x).take (r.val + 1)).sum

/-- `RegisterNewTracks` on all ranks, src/subhalo_tracking.cpp:535-561. `nBirth r` is
`MemberTable.NBirth` on rank `r`. -/
def registerNewTracks {P : Nat} (subs : Fin P → List (Sub K D)) (nBirth : Fin P → Nat) :
    Outcome (Fin P → List (Sub K D)) := do
  let loc ← allRanks P (fun r => registerLocal (subs r) (nBirth r))
  let births := fun r => (loc r).1.length - (loc r).2
  let globalOld := (List.ofFn (fun r => (loc r).2)).sum
  allRanks P (fun r =>
    assignTrackIds (births r) (loc r).2 (((scanSum births r + globalOld : Nat) : Int) - (births r : Int)) (loc r).1)

/-- `Subhalo_t::UpdateTrack`, src/subhalo_tracking.cpp:11-21. -/
def updateTrack [LE K] [DecidableLE K] (snap : Int) (s : Sub K D) : Sub K D :=
  if s.trackId = nullTrack then s
  else
    let s := if s.rank = 0 then { s with snapIsolation := snap } else s
    if s.lastMaxMass ≤ s.mbound then { s with snapMaxMass := snap, lastMaxMass := s.mbound } else s

end HBT.Model
