import Verif.Model.Nest
import Verif.Model.Member
import Verif.Model.Register
/-!
# Model of `UpdateTracks`

src/subhalo_tracking.cpp:876-907. Left out: `CalculateProfileProperties` and `CalculateShape` (lines
902-906), which write members that are not modelled here, and `PurgeMostBoundParticles` (only compiled
with `INCLUSIVE_MASS`, see `Model/Inclusive`).
-/
namespace HBT.Model
variable {K D : Type}

/-- The lists of the host groups `h, h+1, ...` (`k` of them). Part of `updateLocal`, src/subhalo_tracking.cpp:550. -/
def readGroups (t : MemberTable) : Nat → Int → Outcome (List (List Nat))
  | 0, _ => .ok []
  | k + 1, h => do
    let g ← t.group h
    let gs ← readGroups t k (h + 1)
    .ok (g :: gs)

/-- `HostHaloId` is replaced by the global id of the halo, src/subhalo_tracking.cpp:893-897; `haloIds[i]` is
`halo_snap.Halos[i].HaloId`. -/
def restoreHost (haloIds : List Int) (s : Sub K D) : Outcome (Sub K D) :=
  if s.hostHaloId < 0 then .ok { s with hostHaloId := -1 }
  else do
    let h ← Outcome.getI haloIds s.hostHaloId
    .ok { s with hostHaloId := h }

/-- src/subhalo_tracking.cpp:890-898: `UpdateTrack` and the global host id for each subhalo. -/
def refreshAll [LE K] [DecidableLE K] (snap : Int) (haloIds : List Int) : List (Sub K D) → Outcome (List (Sub K D))
  | [] => .ok []
  | s :: subs => do
    let s ← restoreHost haloIds (updateTrack snap s)
    let subs ← refreshAll snap haloIds subs
    .ok (s :: subs)

/-- `UpdateTracks` on one process after the new tracks are registered: the table built inside
`RegisterNewTracks` (src/subhalo_tracking.cpp:550) with `nhalos` haloes, and lines 882-899. `heads` is
`SubGroupsOfHeads`. -/
def updateLocal [LE K] [DecidableLE K] (sort : List (Sub K D) → List Nat → List Nat) (snap : Int)
    (haloIds : List Int) (heads : List (List Nat)) (subs : List (Sub K D)) : Outcome (List (Sub K D)) := do
  let t ← buildTable sort haloIds.length subs true
  let all ← sortMemberLists (sort subs) t.groups t.all
  let t : MemberTable := ⟨all, t.groups, t.nBirth⟩
  let groups ← readGroups t haloIds.length 0
  let subs ← extendNests subs.length groups heads subs
  let subs ← assignRanks t subs
  let subs ← fillDepth subs.length groups subs
  let subs ← refreshAll snap haloIds subs
  globalize snap subs

/-- `UpdateTracks`, src/subhalo_tracking.cpp:876-900, on all processes. -/
def updateTracks [LE K] [DecidableLE K] {P : Nat} (sort : List (Sub K D) → List Nat → List Nat) (snap : Int)
    (haloIds : Fin P → List Int) (nBirth : Fin P → Nat) (heads : Fin P → List (List Nat))
    (subs : Fin P → List (Sub K D)) : Outcome (Fin P → List (Sub K D)) := do
  let subs ← registerNewTracks subs nBirth
  allRanks P (fun r => updateLocal sort snap (haloIds r) (heads r) (subs r))

end HBT.Model
