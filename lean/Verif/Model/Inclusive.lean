import Verif.Model.Merge
import Verif.Model.Update
import Verif.Model.Purge
/-!
# Model of the build with `INCLUSIVE_MASS`

With `INCLUSIVE_MASS` defined, a subhalo keeps the particles of the subhaloes inside of it: `MaskSubhalos` is not called
(src/subhalo_tracking.cpp:530-532), every subhalo is unbound alone (src/subhalo_unbind.cpp:470-476), a merged subhalo gives
nothing to its sink (src/subhalo_merge.cpp:248-257), and `UpdateTracks` moves shared particles away from the front
(src/subhalo_tracking.cpp:886-888). All else is the code of the other build.
-/
namespace HBT.Model
variable {K D E : Type}

/-- One iteration of the loop of `RefineParticles`, src/subhalo_unbind.cpp:472-476. -/
def refineAlone [LT E] [DecidableLT E] [Zero E] [MassSum K] (cfg : UnbindConfig) (env : Nat → UnbindEnv K D E)
    (snap : Int) (i : Nat) (subs : List (Sub K D)) : Outcome (List (Sub K D)) := do
  let s ← Outcome.get subs i
  let s' ← unbindFull cfg (env i) snap s
  Outcome.set subs i (truncateSource cfg s')

/-- `RefineParticles`, src/subhalo_unbind.cpp:470-476, the subhaloes in the order `each`. -/
def refineInclusive [LT E] [DecidableLT E] [Zero E] [MassSum K] (cfg : UnbindConfig) (env : Nat → UnbindEnv K D E)
    (snap : Int) (each : List Nat) (subs : List (Sub K D)) : Outcome (List (Sub K D)) :=
  runAll (refineAlone cfg env snap) each subs

/-- `MergeTo`, src/subhalo_merge.cpp:244-262 without lines 249-256: the host is not touched. With fewer particles than one
`resize(1)` would make up a particle: undefined. -/
def mergeAway [MassSum K] (mass : D → K) (sat : Sub K D) : Outcome (Sub K D) :=
  if sat.nbound ≤ 1 then .ok sat
  else
    match sat.particles with
    | [] => .ub
    | p :: _ => .ok { sat with particles := [p], nbound := 1, mbound := mass p.data }

/-- src/subhalo_merge.cpp:227-231. `Subhalos[SinkTrackId]` must be there, although nothing is done to it. -/
def mergeOneInclusive [MassSum K] (mass : D → K) (snap : Int) (id : Nat) (subs : List (Sub K D)) : Outcome (List (Sub K D)) := do
  let sat ← Outcome.get subs id
  if sat.sinkTrackId ≠ nullTrack ∧ sat.snapDeath = nullSnap then do
    let _ ← Outcome.getI subs sat.sinkTrackId
    let s ← mergeAway mass sat
    Outcome.set subs id { s with snapDeath := snap }
  else .ok subs

/-- `MergeRecursive`, src/subhalo_merge.cpp:222-232. -/
def mergeRecursiveInclusive [MassSum K] (mass : D → K) (snap : Int) (fuel id : Nat) (subs : List (Sub K D)) :
    Outcome (List (Sub K D)) :=
  visit (fun id st => do let s ← Outcome.get st id; .ok s.nested) (fun _ _ => .ok ())
    (fun _ _ st => .ok st) (fun _ => mergeOneInclusive mass snap) fuel id subs

/-- One iteration of the loop over haloes, src/subhalo_merge.cpp:204-206. -/
def mergeHostInclusive [MassSum K] (mass : D → K) (snap : Int) (fuel : Nat) (groups : List (List Nat)) (h : Nat)
    (subs : List (Sub K D)) : Outcome (List (Sub K D)) := do
  let g ← Outcome.get groups h
  match g with
  | [] => .ok subs
  | c :: _ => mergeRecursiveInclusive mass snap fuel c subs

/-- src/subhalo_merge.cpp:201-215: with `MergeTrappedSubhalos`. -/
def mergeTrappedInclusive [LT E] [DecidableLT E] [Zero E] [MassSum K] (cfg : UnbindConfig) (env : Nat → UnbindEnv K D E)
    (mass : D → K) (snap : Int) (fuel : Nat) (order each : List Nat) (groups : List (List Nat)) (merged : List Nat)
    (subs : List (Sub K D)) : Outcome (List (Sub K D)) := do
  let subs ← runAll (mergeHostInclusive mass snap fuel groups) order subs
  let subs ← runAll (unbindMerged cfg env snap merged) each subs
  runAll (truncMerged cfg merged) each subs

/-- `MergeSubhalos`, src/subhalo_merge.cpp:187-220, on one process. -/
def mergeSubhalosInclusive [LT E] [DecidableLT E] [Zero E] [MassSum K] (cfg : UnbindConfig) (env : Nat → UnbindEnv K D E)
    (mass : D → K) (on : Bool) (sunk : Nat → Nat → Bool) (snap : Int) (fuel : Nat) (order each : List Nat)
    (groups heads : List (List Nat)) (subs : List (Sub K D)) : Outcome (List (Sub K D)) := do
  let glued ← runAll (glueHost groups heads) order subs
  let hosts ← runAll (fillHost glued) each (List.replicate glued.length (-1))
  let r ← detectTraps sunk snap fuel hosts glued
  let done ← if on then mergeTrappedInclusive cfg env mass snap fuel order each groups r.2 r.1 else .ok r.1
  runAll (unglueHost groups subs) order done

/-- `UpdateTracks` on one process after the new tracks are registered, src/subhalo_tracking.cpp:882-899 with lines 886-888:
`updateLocal` with `PurgeMostBoundParticles` after `FillDepth`. `coord` are the most-bound coordinates a subhalo has before;
they are written by it and not read, so any function will do, and they are not part of the result. -/
def updateLocalInclusive [LE K] [DecidableLE K] (coord : Sub K D → D) (sort : List (Sub K D) → List Nat → List Nat) (snap : Int)
    (haloIds : List Int) (heads : List (List Nat)) (subs : List (Sub K D)) : Outcome (List (Sub K D)) := do
  let t ← buildTable sort haloIds.length subs true
  let all ← sortMemberLists (sort subs) t.groups t.all
  let t : MemberTable := ⟨all, t.groups, t.nBirth⟩
  let groups ← readGroups t haloIds.length 0
  let subs ← extendNests subs.length groups heads subs
  let subs ← assignRanks t subs
  let subs ← fillDepth subs.length groups subs
  let field ← t.group (-1)
  let r ← purge (field :: groups) (subs, subs.map coord)
  let subs ← refreshAll snap haloIds r.1
  globalize snap subs

/-- `UpdateTracks`, src/subhalo_tracking.cpp:876-900, on all processes. -/
def updateTracksInclusive [LE K] [DecidableLE K] {P : Nat} (coord : Sub K D → D) (sort : List (Sub K D) → List Nat → List Nat) (snap : Int)
    (haloIds : Fin P → List Int) (nBirth : Fin P → Nat) (heads : Fin P → List (List Nat))
    (subs : Fin P → List (Sub K D)) : Outcome (Fin P → List (Sub K D)) := do
  let subs ← registerNewTracks subs nBirth
  allRanks P (fun r => updateLocalInclusive coord sort snap (haloIds r) (heads r) (subs r))

end HBT.Model
