import Verif.Model.SpmdMpi
import Verif.Model.Nest
import Verif.Model.Update
/-!
# Nesting and registration of tracks as programs of the processes, src/subhalo_tracking.cpp:535-561, 605-653, 876-900

The local parts are those of `Model/Nest.lean`, `Model/Register.lean` and `Model/Update.lean`.
-/
namespace HBT.Spmd
open HBT.Model
variable {P : Nat} {K D : Type}

/-- src/subhalo_tracking.cpp:640-643: the tracks of the root are received in `ReceivedTracks`, which is resized before. -/
def receiveTracks (chunk : Nat) (root r : Fin P) (lost received : List Int) : Prog P (List Int) := do
  let stacksize ← bcast1 root lost.length
  let x ← bcastList 0 chunk root r stacksize lost
  lift (writeAt (resize 0 stacksize received) 0 x.2)

/-- src/subhalo_tracking.cpp:644-651. -/
def levelUpUnless (isRoot : Bool) (idx : Int → Int) (received : List Int) (subs : List (Sub K D)) : Outcome (List (Sub K D)) :=
  if isRoot then .ok subs else levelUpReceived idx received subs

/-- The loop over roots, src/subhalo_tracking.cpp:637-652. -/
def localizeLoop (chunk : Nat) (idx : Int → Int) (r : Fin P) (lost : List Int) :
    List (Fin P) → List Int → List (Sub K D) → Prog P (List (Sub K D))
  | [], _, subs => .ret subs
  | root :: roots, received, subs => do
    let received ← receiveTracks chunk root r lost received
    let subs ← lift (levelUpUnless (decide (r = root)) idx received subs)
    localizeLoop chunk idx r lost roots received subs

/-- `LocalizeNestedIds`, src/subhalo_tracking.cpp:605-653. -/
def localize (chunk : Nat) (sort : List (Int × Int) → List (Int × Int)) (bsearch : Int → List (Int × Int) → Option (Int × Int))
    (r : Fin P) (subs : List (Sub K D)) : Prog P (List (Sub K D)) :=
  let idx := trackIndex sort bsearch subs
  let loc := localizeLocal idx subs
  localizeLoop chunk idx r loc.2 (List.finRange P) [] loc.1

/-- `NestSubhalos` after `LocalizeNestedIds`, on one process. src/subhalo_tracking.cpp:669-705. -/
def nestLocal (order : List Nat) (groups : List (List Nat)) (field : List Nat) (subs : List (Sub K D)) :
    Outcome (List (Sub K D) × List (List Nat)) := do
  let s ← levelUpDetached subs.length order groups field subs
  let heads ← headGroups s groups
  .ok (s, heads)

/-- `NestSubhalos`. src/subhalo_tracking.cpp:669-705. -/
def nest (chunk : Nat) (sort : List (Int × Int) → List (Int × Int)) (bsearch : Int → List (Int × Int) → Option (Int × Int))
    (r : Fin P) (order : List Nat) (groups : List (List Nat)) (field : List Nat) (subs : List (Sub K D)) :
    Prog P (List (Sub K D) × List (List Nat)) := do
  let subs ← localize chunk sort bsearch r subs
  lift (nestLocal order groups field subs)

/-- `RegisterNewTracks`, src/subhalo_tracking.cpp:535-561. -/
def register (subs : List (Sub K D)) (nBirth : Nat) : Prog P (List (Sub K D)) := do
  let loc ← lift (registerLocal subs nBirth)
  let globalOld ← allreduce1 (fun a b => a + b) loc.2
  let offset ← scan1 (fun a b => a + b) (loc.1.length - loc.2)
  lift (assignTrackIds (loc.1.length - loc.2) loc.2 (((offset + globalOld : Nat) : Int) - ((loc.1.length - loc.2 : Nat) : Int)) loc.1)

/-- `UpdateTracks`, src/subhalo_tracking.cpp:876-900. -/
def update [LE K] [DecidableLE K] (sort : List (Sub K D) → List Nat → List Nat) (snap : Int) (haloIds : List Int) (nBirth : Nat)
    (heads : List (List Nat)) (subs : List (Sub K D)) : Prog P (List (Sub K D)) := do
  let subs ← register subs nBirth
  lift (updateLocal sort snap haloIds heads subs)

end HBT.Spmd
