import Verif.Model.Outcome
import Verif.Model.Mpi
import Verif.Model.Hash
import Verif.Model.Centrals
import Verif.Spec.Types
/-!
# Model of the nesting hierarchy

src/subhalo_tracking.cpp:605-791: `LocalizeNestedIds`, `GlobalizeTrackReferences`, `NestSubhalos`,
`FillDepth`, `ExtendCentralNest`, `LevelUpDetachedSubhalos`, `LevelUpDetachedMembers`.

The groups of the membership table are given as lists of subhalo indices: `groups[h]` is
`SubGroups[h]`, `field` is `SubGroups[-1]` (C23 shows that the table stores them faithfully).
`NestedSubhalos` holds TrackIds between snapshots and local indices while a snapshot is processed.
The recursive functions take a bound `fuel` on the recursion depth; reaching it is `diverge`.
-/
namespace HBT.Model
variable {K D : Type}

/-! ## `LocalizeNestedIds` -/

/-- `TrackKeyList_t`, src/subhalo.h:283-302: key `TrackId`, value the local index. -/
def trackKeys (subs : List (Sub K D)) : List (Int × Int) :=
  subs.zipIdx.map (fun x => (x.1.trackId, (x.2 : Int)))

/-- `TrackHash.GetIndex`, src/subhalo_tracking.cpp:608-610. -/
def trackIndex (sort : List (Int × Int) → List (Int × Int))
    (bsearch : Int → List (Int × Int) → Option (Int × Int)) (subs : List (Sub K D)) (tid : Int) : Int :=
  (MappedTable.fill sort (trackKeys subs) nullTrack).getIndex bsearch tid

/-- src/subhalo_tracking.cpp:616-632 for the nest of one subhalo: the local indices found, and the tracks that are not
on this process. -/
def localizeNest (idx : Int → Int) : List Int → List Int × List Int
  | [] => ([], [])
  | t :: ts =>
    let (found, lost) := localizeNest idx ts
    if idx t = nullTrack then (found, t :: lost) else (idx t :: found, lost)

/-- src/subhalo_tracking.cpp:613-633: all nests of one process, and `DissociatedTracks`. -/
def localizeLocal (idx : Int → Int) : List (Sub K D) → List (Sub K D) × List Int
  | [] => ([], [])
  | s :: subs =>
    let (found, lost) := localizeNest idx s.nested
    let (subs, losts) := localizeLocal idx subs
    (s.withNested found :: subs, lost ++ losts)

/-- src/subhalo_tracking.cpp:645-650: level up the received tracks that are on this process. -/
def levelUpReceived (idx : Int → Int) : List Int → List (Sub K D) → Outcome (List (Sub K D))
  | [], subs => .ok subs
  | t :: ts, subs =>
    if idx t = nullTrack then levelUpReceived idx ts subs
    else do
      let s ← Outcome.getI subs (idx t)
      let subs ← Outcome.set subs (idx t).toNat (s.withRank 0)
      levelUpReceived idx ts subs

/-- The loop over roots, src/subhalo_tracking.cpp:637-652, on all processes. `chunk` is the buffer size of `MyBcast`. -/
def localizeRoots {P : Nat} (chunk : Nat) (idx : Fin P → Int → Int) (lost : Fin P → List Int) :
    List (Fin P) → (Fin P → List (Sub K D)) → Outcome (Fin P → List (Sub K D))
  | [], subs => .ok subs
  | root :: roots, subs => do
    let (_, received) ← myBcast chunk root (fun r => (lost r).length) (lost root)
    let subs ← allRanks P (fun r =>
      if r = root then .ok (subs r) else levelUpReceived (idx r) (received r) (subs r))
    localizeRoots chunk idx lost roots subs

/-- `LocalizeNestedIds`, src/subhalo_tracking.cpp:605-653, on all processes. -/
def localizeNestedIds {P : Nat} (chunk : Nat) (sort : List (Int × Int) → List (Int × Int))
    (bsearch : Int → List (Int × Int) → Option (Int × Int)) (subs : Fin P → List (Sub K D)) :
    Outcome (Fin P → List (Sub K D)) :=
  let idx := fun r => trackIndex sort bsearch (subs r)
  let loc := fun r => localizeLocal (idx r) (subs r)
  localizeRoots chunk idx (fun r => (loc r).2) (List.finRange P) (fun r => (loc r).1)

/-! ## `LevelUpDetachedMembers` -/

/-- `Subhalos[subid].Rank=0` in case of detachment, src/subhalo_tracking.cpp:777-781. -/
def detach (host : Int) (k : Nat) (t : Sub K D) (subs : List (Sub K D)) : Outcome (List (Sub K D)) :=
  if t.hostHaloId ≠ host ∨ t.rank = 0 then Outcome.set subs k (t.withRank 0) else .ok subs

/-- The loop of `LevelUpDetachedMembers`, src/subhalo_tracking.cpp:774-789, over the nested ids `ks` of a subhalo in host
`host`; `rec` is the recursive call. Returns the ids kept in the nest. (The C++ loop compacts the
nest in place while it reads it; the entries it still has to read are not overwritten.) -/
def levelUpKids (rec : Nat → List (Sub K D) → Outcome (List (Sub K D))) (host : Int) :
    List Int → List (Sub K D) → Outcome (List Int × List (Sub K D))
  | [], subs => .ok ([], subs)
  | k :: ks, subs => do
    let t ← Outcome.getI subs k
    let subs ← detach host k.toNat t subs
    let subs ← rec k.toNat subs
    let (kept, subs) ← levelUpKids rec host ks subs
    .ok (if t.hostHaloId ≠ host ∨ t.rank = 0 then kept else k :: kept, subs)

/-- `Subhalo_t::LevelUpDetachedMembers`, src/subhalo_tracking.cpp:771-791, for the subhalo with index `id`. -/
def levelUpMembers : Nat → Nat → List (Sub K D) → Outcome (List (Sub K D))
  | 0, _, _ => .diverge
  | fuel + 1, id, subs => do
    let s ← Outcome.get subs id
    let (kept, subs) ← levelUpKids (levelUpMembers fuel) s.hostHaloId s.nested subs
    let s ← Outcome.get subs id
    Outcome.set subs id (s.withNested kept)

/-- `LevelUpDetachedMembers` for each of the listed subhaloes. Part of `levelUpDetached`, src/subhalo_tracking.cpp:735-769. -/
def levelUpEach (fuel : Nat) : List Nat → List (Sub K D) → Outcome (List (Sub K D))
  | [], subs => .ok subs
  | id :: ids, subs => do
    let subs ← levelUpMembers fuel id subs
    levelUpEach fuel ids subs

/-! ## `LevelUpDetachedSubhalos` -/

/-- `Subhalos[id].Rank=0` for each of the listed subhaloes. Part of `levelUpDetached`, src/subhalo_tracking.cpp:735-769. -/
def rankZero : List Nat → List (Sub K D) → Outcome (List (Sub K D))
  | [], subs => .ok subs
  | id :: ids, subs => do
    let s ← Outcome.get subs id
    let subs ← Outcome.set subs id (s.withRank 0)
    rankZero ids subs

/-- The first members of the groups that are not empty, src/subhalo_tracking.cpp:750-755. -/
def centralsOf (groups : List (List Nat)) : List Nat := groups.filterMap List.head?

/-- `LevelUpDetachedSubhalos`, src/subhalo_tracking.cpp:735-769, on one process. `order` is the order in which the OpenMP
iterations of the last loop take effect (iterations for different heads touch different hierarchies,
which the proofs show). -/
def levelUpDetached (fuel : Nat) (order : List Nat) (groups : List (List Nat)) (field : List Nat)
    (subs : List (Sub K D)) : Outcome (List (Sub K D)) := do
  let isHead := subs.map (fun s => decide (s.rank = 0))
  let subs ← rankZero (centralsOf groups) subs
  let subs ← rankZero field subs
  levelUpEach fuel (order.filter (fun i => isHead[i]? == some true)) subs

/-! ## `NestSubhalos` -/

/-- The heads of one group, src/subhalo_tracking.cpp:681-686. -/
def headsOf (subs : List (Sub K D)) : List Nat → Outcome (List Nat)
  | [] => .ok []
  | id :: ids => do
    let s ← Outcome.get subs id
    let hs ← headsOf subs ids
    .ok (if s.rank = 0 then id :: hs else hs)

/-- `SubGroupsOfHeads`, src/subhalo_tracking.cpp:675-687. -/
def headGroups (subs : List (Sub K D)) : List (List Nat) → Outcome (List (List Nat))
  | [] => .ok []
  | g :: gs => do
    let h ← headsOf subs g
    let hs ← headGroups subs gs
    .ok (h :: hs)

/-- `NestSubhalos`, src/subhalo_tracking.cpp:669-688, on all processes: the subhaloes and `SubGroupsOfHeads` of each. The
recursion bound given to the recursive functions is the number of subhaloes of the process. -/
def nestSubhalos {P : Nat} (chunk : Nat) (sort : List (Int × Int) → List (Int × Int))
    (bsearch : Int → List (Int × Int) → Option (Int × Int)) (order : Fin P → List Nat)
    (groups : Fin P → List (List Nat)) (field : Fin P → List Nat) (subs : Fin P → List (Sub K D)) :
    Outcome (Fin P → List (Sub K D) × List (List Nat)) := do
  let subs ← localizeNestedIds chunk sort bsearch subs
  allRanks P (fun r => do
    let s ← levelUpDetached (subs r).length (order r) (groups r) (field r) (subs r)
    let heads ← headGroups s (groups r)
    .ok (s, heads))

/-! ## `ExtendCentralNest` -/

/-- src/subhalo_tracking.cpp:713-729 for one halo: `group` is the (re-sorted) group, `heads` the heads found by
`NestSubhalos`. -/
def extendOne (fuel : Nat) (group heads : List Nat) (subs : List (Sub K D)) : Outcome (List (Sub K D)) :=
  match group with
  | [] => .ok subs
  | [_] => .ok subs
  | c :: _ => do
    let central ← Outcome.get subs c
    if central.rank = 0 then
      Outcome.set subs c (central.withNested
        (central.nested ++ ((heads.filter (fun h => decide (h ≠ c))).map (fun h : Nat => (h : Int)))))
    else do
      let subs ← Outcome.set subs c (central.withRank 0)
      let subs ← levelUpEach fuel heads subs
      let central ← Outcome.get subs c
      Outcome.set subs c (central.withNested (central.nested ++ heads.map (fun h : Nat => (h : Int))))

/-- `ExtendCentralNest`, src/subhalo_tracking.cpp:708-733: the loop over haloes (the C++ loop reads
`SubGroupsOfHeads[haloid]`, which has one entry per group; a missing one is undefined). -/
def extendNests (fuel : Nat) : List (List Nat) → List (List Nat) → List (Sub K D) → Outcome (List (Sub K D))
  | [], _, subs => .ok subs
  | _ :: _, [], _ => .ub
  | g :: gs, h :: hs, subs => do
    let subs ← extendOne fuel g h subs
    extendNests fuel gs hs subs

/-! ## `FillDepth` -/

/-- The loop of `FillDepthRecursive`, src/subhalo_tracking.cpp:694-697. -/
def fillDepthKids (rec : Nat → List (Sub K D) → Outcome (List (Sub K D))) :
    List Int → List (Sub K D) → Outcome (List (Sub K D))
  | [], subs => .ok subs
  | k :: ks, subs => do
    let _ ← Outcome.getI subs k
    let subs ← rec k.toNat subs
    fillDepthKids rec ks subs

/-- `FillDepthRecursive`, src/subhalo_tracking.cpp:690-698. -/
def fillDepthRec : Nat → Int → Nat → List (Sub K D) → Outcome (List (Sub K D))
  | 0, _, _, _ => .diverge
  | fuel + 1, depth, id, subs => do
    let s ← Outcome.get subs id
    let subs ← Outcome.set subs id (s.withDepth depth)
    fillDepthKids (fillDepthRec fuel (depth + 1)) s.nested subs

/-- `FillDepth`, src/subhalo_tracking.cpp:700-705, for the first members of the groups. -/
def fillDepthEach (fuel : Nat) : List Nat → List (Sub K D) → Outcome (List (Sub K D))
  | [], subs => .ok subs
  | id :: ids, subs => do
    let subs ← fillDepthRec fuel 0 id subs
    fillDepthEach fuel ids subs

/-- `FillDepth`, src/subhalo_tracking.cpp:700-705. -/
def fillDepth (fuel : Nat) (groups : List (List Nat)) (subs : List (Sub K D)) : Outcome (List (Sub K D)) :=
  fillDepthEach fuel (centralsOf groups) subs

/-! ## `GlobalizeTrackReferences` -/

/-- `subid=Subhalos[subid].TrackId` for a list of references, src/subhalo_tracking.cpp:664-665. -/
def globalIds (subs : List (Sub K D)) : List Int → Outcome (List Int)
  | [] => .ok []
  | k :: ks => do
    let s ← Outcome.getI subs k
    let ts ← globalIds subs ks
    .ok (s.trackId :: ts)

/-- Lines 661-665 for one subhalo. `SinkTrackId` is a local index if and only if the subhalo was
trapped in this snapshot (`JustTrapped`, src/subhalo.h:142). -/
def globalizeOne (snap : Int) (subs : List (Sub K D)) (s : Sub K D) : Outcome (Sub K D) := do
  let ts ← globalIds subs s.nested
  if s.snapSink = snap then do
    let t ← Outcome.getI subs s.sinkTrackId
    .ok { s with nested := ts, sinkTrackId := t.trackId }
  else .ok (s.withNested ts)

/-- `GlobalizeTrackReferences`, src/subhalo_tracking.cpp:654-667. Only `NestedSubhalos` and `SinkTrackId` are written and
only `TrackId` is read across subhaloes, so the order of the iterations is irrelevant. -/
def globalizeFrom (snap : Int) (all : List (Sub K D)) : List (Sub K D) → Outcome (List (Sub K D))
  | [] => .ok []
  | s :: subs => do
    let s ← globalizeOne snap all s
    let subs ← globalizeFrom snap all subs
    .ok (s :: subs)

/-- `GlobalizeTrackReferences`, src/subhalo_tracking.cpp:654-667. -/
def globalize (snap : Int) (subs : List (Sub K D)) : Outcome (List (Sub K D)) := globalizeFrom snap subs subs

end HBT.Model
