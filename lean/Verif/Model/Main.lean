import Verif.Model.Partition
import Verif.Model.Exchange
import Verif.Model.Kick
import Verif.Model.HaloExchange
import Verif.Model.Hosts
import Verif.Model.Member
import Verif.Model.Centrals
import Verif.Model.Nest
import Verif.Model.Mask
import Verif.Model.Refine
import Verif.Model.Merge
import Verif.Model.Update
import Verif.Model.Catalogue
/-!
# Model of the main loop, HBT.cpp:41-90

One iteration takes the particles and groups as the readers leave them on the processes to the
catalogue that is written. The steps are those modelled in the other files.
-/
namespace HBT.Model
variable {K D E S R : Type}

/-- What is fixed for a run: the build (`DM_ONLY`), parameters, library functions and buffer sizes.
`S` is the type of the group data other than the particles; `cell` is `AssignCell` for a grid of the given number
of processes (src/particle_exchanger.h:253-268), `average` is `AverageCoordinates`. -/
structure Build (K D S : Type) where
  dmOnly : Bool
  /-- `ParticleIdNeedHash` -/
  needHash : Bool
  /-- `GroupLoadedFullParticle` -/
  fullGroups : Bool
  /-- buffer of `MyAllToAll` -/
  chunk : Nat
  fill : Particle D
  /-- `MaxChunkSize` of `FindOtherHostsSafely` -/
  hostChunk : Nat
  /-- buffer of the id broadcast in `NestSubhalos` -/
  nestChunk : Nat
  sortIds : List (Particle D) → List (Particle D)
  sortTagged : List (Particle D × Nat) → List (Particle D × Nat)
  sortRanks : List (Int × Nat) → List (Int × Nat)
  sortKeys : List (Int × Int) → List (Int × Int)
  bsearch : Int → List (Int × Int) → Option (Int × Int)
  sortMass : List (Sub K D) → List Nat → List Nat
  average : HaloRec S (Particle D) → HaloRec S (Particle D)
  cell : Nat → HaloRec S (Particle D) → Outcome Int
  /-- `HaloId` of a group -/
  haloId : S → Int
  /-- `MajorProgenitorMassRatio` -/
  ratio : K
  cfg : UnbindConfig
  mass : D → K
  /-- `MergeTrappedSubhalos` -/
  merging : Bool
  /-- `MinSnapshotIndex` -/
  minIndex : Int
  /-- `SnapshotId` of a snapshot index -/
  snapId : Int → Int
  /-- particle data that a catalogue does not hold -/
  blank : D

/-- What one snapshot brings: its index, the particles and groups on each process as the readers leave them; the
orders in which parallel iterations take effect (rearrangements of the iteration ranges); the kinetic distance, the gravity solver
and the sink criterion, as functions of the state of the process. Part of `placeParticles`, src/io/snapshot_io.cpp:45-48. -/
structure SnapInput (K D E S R : Type) (P : Nat) where
  snap : Int
  parts : Fin P → List (Particle D)
  halos : Fin P → List (HaloRec S (Particle D))
  tableOrder : Fin P → List (Int × Int) → List (Int × Int)
  feedOrder : Fin P → List Nat → List Nat
  nestOrder : Fin P → List Nat → List Nat
  maskOrder : Fin P → List Nat → List Nat
  hostOrder : Fin P → List Nat → List Nat
  loneOrder : Fin P → List Nat → List Nat
  mergeOrder : Fin P → List Nat → List Nat
  eachOrder : Fin P → List Nat → List Nat
  dist : Fin P → List (HaloRec S (Particle D)) → List (Sub K D) → Nat → Nat → R
  env : Fin P → List (Sub K D) → Nat → UnbindEnv K D E
  env' : Fin P → List (Sub K D) → Nat → UnbindEnv K D E
  sunk : Fin P → List (Sub K D) → Nat → Nat → Bool

/-! ## Loading particles -/

/-- A new `FlatIndexTable_t`, src/hash.h:71. (`KeyMin`, `KeyMax` are not read while `KeySpan` is 0.) -/
def emptyFlat : FlatTable := ⟨nullId, [], 0, 0, 0⟩

/-- `ParticleSnapshot_t::FillParticleHash`, src/snapshot.cpp:61-66, on one process: the table selected by
`ParticleIdNeedHash` (src/snapshot.h:171-176) is filled, the other stays empty. -/
def fillHash (b : Build K D S) (order : List (Int × Int) → List (Int × Int)) (ps : List (Particle D)) :
    Outcome (SnapRank D) :=
  if b.needHash then .ok ⟨ps, MappedTable.fill b.sortKeys (particleKeys ps) nullId, emptyFlat⟩
  else do
    let flat ← emptyFlat.fill (particleKeys ps) (order (particleKeys ps)) nullId
    .ok ⟨ps, ⟨[], nullId⟩, flat⟩

/-- `ParticleSnapshot_t::Load` after the reader, src/io/snapshot_io.cpp:45-48. Returns the part of each process and
`ProcessIdRanges`. -/
def placeParticles {P : Nat} (b : Build K D S) (w : SnapInput K D E S R P) : Outcome ((Fin P → SnapRank D) × List Int) := do
  let x ← exchangeParticles b.sortIds w.parts
  let snap ← allRanks P (fun r => fillHash b (w.tableOrder r) (x.1 r))
  .ok (snap, x.2)

/-! ## Updating haloes and subhaloes -/

/-- `KickNullParticles` of a halo, src/halo.cpp:131-150, in either build. -/
def kickInHalo (dmOnly : Bool) (ps : List (Particle D)) : Outcome (List (Particle D)) := do
  let x ← if dmOnly then kickHaloDmOnly ps else kickHalo ps
  .ok x.1

/-- The queried particles put into the haloes, and `KickNullParticles`, src/particle_exchanger.h:226-240. -/
def putHalos (dmOnly : Bool) : List (HaloRec S (Particle D)) → List (List (Particle D)) →
    Outcome (List (HaloRec S (Particle D)))
  | h :: hs, ps :: pss => do
    let ps ← kickInHalo dmOnly ps
    let rest ← putHalos dmOnly hs pss
    .ok (⟨h.shell, ps⟩ :: rest)
  | _, _ => .ok []

/-- `HaloSnapshot_t::UpdateParticles`, src/halo.cpp:57-76, with `ExchangeHalos`, src/particle_exchanger.h:270-327. -/
def updateHalos {P : Nat} (b : Build K D S) (ranges : List Int) (snap : Fin P → SnapRank D)
    (halos : Fin P → List (HaloRec S (Particle D))) : Outcome (Fin P → List (HaloRec S (Particle D))) :=
  if b.fullGroups then .ok halos
  else do
    let x ← exchange b.needHash b.chunk b.fill b.sortTagged ranges snap (fun r => (halos r).map HaloRec.particles)
    let halos ← allRanks P (fun r => putHalos b.dmOnly (halos r) (x r))
    distributeHalos b.chunk b.fill b.sortRanks b.average (b.cell P) halos (fun _ => [])

/-- `KickNullParticles` of a subhalo, src/subhalo.cpp:446-477, in either build: new `Nbound` and particles. -/
def kickInSub (dmOnly : Bool) (nbound : Nat) (ps : List (Particle D)) : Outcome (Nat × List (Particle D)) :=
  if dmOnly then .ok (nbound, ps)
  else do
    let x ← kickSubhalo nbound ps
    .ok (x.1, x.2.1)

/-- `CountParticles`, src/subhalo.cpp:479-499: `Mbound` is the mass of the first `Nbound` particles. (Counts per type are in
`Model/Moments.lean`.) -/
def countMass [MassSum K] (mass : D → K) (s : Sub K D) : Outcome (Sub K D) :=
  if s.nbound ≤ s.particles.length then .ok { s with mbound := massOf mass s.nbound s.particles } else .ub

/-- The queried particles put into the subhaloes, `KickNullParticles` and `CountParticles`.
Part of `updateSubs`, src/subhalo.cpp:183-192. -/
def putSubs [MassSum K] (b : Build K D S) : List (Sub K D) → List (List (Particle D)) → Outcome (List (Sub K D))
  | s :: ss, ps :: pss => do
    let x ← kickInSub b.dmOnly s.nbound ps
    let s ← countMass b.mass { s with nbound := x.1, particles := x.2 }
    let rest ← putSubs b ss pss
    .ok (s :: rest)
  | _, _ => .ok []

/-- `SubhaloSnapshot_t::UpdateParticles`, src/subhalo.cpp:183-192, with `ExchangeSubHalos`, src/subhalo.cpp:24-42. -/
def updateSubs [MassSum K] {P : Nat} (b : Build K D S) (ranges : List Int) (snap : Fin P → SnapRank D)
    (subs : Fin P → List (Sub K D)) : Outcome (Fin P → List (Sub K D)) := do
  let x ← exchange b.needHash b.chunk b.fill b.sortTagged ranges snap (fun r => (subs r).map Sub.particles)
  allRanks P (fun r => putSubs b (subs r) (x r))

/-! ## Hosts and centrals -/

/-- `HaloParticleKeyList_t`, src/halo.cpp:78-107: key `p.Id`, value the local index of the halo, from index `i` on. -/
def haloKeys : List (HaloRec S (Particle D)) → Nat → List (Int × Int)
  | [], _ => []
  | h :: hs, i => h.particles.map (fun p => (p.id, (i : Int))) ++ haloKeys hs (i + 1)

/-- `HaloSnapshot_t::FillParticleHash` and `ParticleHash.GetIndex`, src/halo.cpp:109-113 (a mapped table,
src/halo.h:49). -/
def haloIndex (b : Build K D S) (halos : List (HaloRec S (Particle D))) (pid : Int) : Int :=
  (MappedTable.fill b.sortKeys (haloKeys halos 0) nullHalo).getIndex b.bsearch pid

/-- `part_snap.GetIndex(pid)!=NullParticleId`, src/subhalo_tracking.cpp:169-170, src/snapshot.h:218-221. (A read out of range does not
happen with a filled table, C09; the model would answer "not found".) -/
def inSnapshot (b : Build K D S) (s : SnapRank D) (pid : Int) : Bool :=
  if b.needHash then decide (s.mapped.getIndex b.bsearch pid ≠ nullId)
  else match s.flat.getIndex pid with
    | .ok i => decide (i ≠ nullId)
    | _ => false

/-- `DecideCentrals` for the hosts from `h` on, src/subhalo_tracking.cpp:436-467. -/
def decideCentrals [Mul K] [LT K] [DecidableLT K] [LT R] [DecidableLT R] (ratio : K) (dist : Nat → Nat → R)
    (subs : List (Sub K D)) : List (List Nat) → Nat → Outcome (List (List Nat))
  | [], _ => .ok []
  | g :: gs, h => do
    let g ← decideCentral ratio (dist h) subs g
    let rest ← decideCentrals ratio dist subs gs (h + 1)
    .ok (g :: rest)

/-- A new `Subhalo_t`, src/subhalo.h:81-96. -/
def freshSub [Zero K] : Sub K D := { mbound := 0, lastMaxMass := 0 }

/-- The state of a process after `FeedCentrals`: the haloes as they were before, the number of subhaloes before, the groups,
the field group, and all subhaloes (the new ones last). Part of `prepareRank`, src/subhalo_tracking.cpp:432. -/
structure Prepared (K D S : Type) where
  halos : List (HaloRec S (Particle D))
  nOld : Nat
  nBirth : Nat
  groups : List (List Nat)
  field : List Nat
  subs : List (Sub K D)

/-- `MemberTable.Build` of `AssignHosts` (src/subhalo_tracking.cpp:432), `DecideCentrals` and `FeedCentrals` (526-528) on one
process. -/
def prepareRank [MassSum K] [Mul K] [LT K] [DecidableLT K] [LT R] [DecidableLT R] {P : Nat} (b : Build K D S)
    (w : SnapInput K D E S R P) (r : Fin P) (halos : List (HaloRec S (Particle D))) (subs : List (Sub K D)) :
    Outcome (Prepared K D S) := do
  let t ← buildTable b.sortMass halos.length subs true
  let groups ← readGroups t halos.length 0
  let field ← t.group (-1)
  let groups ← decideCentrals b.ratio (w.dist r halos subs) subs groups 0
  let st ← feedCentrals w.snap freshSub (w.feedOrder r (List.range halos.length)) groups t.nBirth subs
    (halos.map HaloRec.particles)
  .ok ⟨halos, subs.length, t.nBirth, groups, field, st.subs⟩

/-- `AssignHosts` and the beginning of `PrepareCentrals`, src/subhalo_tracking.cpp:417-434, 522-528. -/
def prepare [MassSum K] [Mul K] [LT K] [DecidableLT K] [LT R] [DecidableLT R] {P : Nat} (b : Build K D S)
    (w : SnapInput K D E S R P) (snap : Fin P → SnapRank D) (halos : Fin P → List (HaloRec S (Particle D)))
    (subs : Fin P → List (Sub K D)) : Outcome (Fin P → Prepared K D S) := do
  let hosted ← assignHosts b.hostChunk (fun r => haloIndex b (halos r)) (fun r => inSnapshot b (snap r)) subs
  allRanks P (fun r => prepareRank b w r (halos r) (hosted r))

/-! ## The rest of a snapshot -/

/-- `RefineParticles` and `MergeSubhalos` on one process, HBT.cpp:75-78; `heads` is `SubGroupsOfHeads`. -/
def refineMerge [MassSum K] [LT E] [DecidableLT E] [Zero E] {P : Nat} (b : Build K D S) (w : SnapInput K D E S R P) (r : Fin P)
    (p : Prepared K D S) (heads : List (List Nat)) (masked : List (Sub K D)) : Outcome (List (Sub K D)) := do
  let refined ← refineParticles b.cfg (w.env r masked) w.snap masked.length
    (w.hostOrder r (List.range p.groups.length))
    (w.loneOrder r (p.field ++ (List.range p.nBirth).map (p.nOld + ·))) p.groups heads masked
  mergeSubhalos b.cfg (w.env' r refined) b.mass b.merging (w.sunk r refined) w.snap (refined.length + 1)
    (w.mergeOrder r (List.range p.groups.length)) (w.eachOrder r (List.range (p.nOld + p.nBirth))) p.groups heads refined

/-- The rest of `PrepareCentrals` (src/subhalo_tracking.cpp:529-532), `RefineParticles`, `MergeSubhalos` and `UpdateTracks`. -/
def finish [LE K] [DecidableLE K] [MassSum K] [LT E] [DecidableLT E] [Zero E] {P : Nat} (b : Build K D S)
    (w : SnapInput K D E S R P) (p : Fin P → Prepared K D S) : Outcome (Fin P → List (Sub K D)) := do
  let nested ← nestSubhalos b.nestChunk b.sortKeys b.bsearch (fun r => w.nestOrder r (List.range (p r).subs.length))
    (fun r => (p r).groups) (fun r => (p r).field) (fun r => (p r).subs)
  let masked ← allRanks P (fun r => maskSubhalos (nested r).1.length (w.maskOrder r (List.range (p r).groups.length))
    (p r).groups (nested r).2 (nested r).1)
  let merged ← allRanks P (fun r => refineMerge b w r (p r) (nested r).2 (masked r))
  updateTracks b.sortMass w.snap (fun r => (p r).halos.map (fun h => b.haloId h.shell)) (fun r => (p r).nBirth)
    (fun r => (nested r).2) merged

/-- One iteration of the main loop, HBT.cpp:55-81: from the subhaloes of the last snapshot to those of this one. -/
def iteration [LE K] [DecidableLE K] [LT K] [DecidableLT K] [MassSum K] [Mul K] [LT R] [DecidableLT R] [LT E] [DecidableLT E]
    [Zero E] {P : Nat} (b : Build K D S) (w : SnapInput K D E S R P) (prev : Fin P → List (Sub K D)) :
    Outcome (Fin P → List (Sub K D)) := do
  let x ← placeParticles b w
  let halos ← updateHalos b x.2 x.1 w.halos
  let subs ← updateSubs b x.2 x.1 prev
  let p ← prepare b w x.1 halos subs
  finish b w p

/-! ## Sessions -/

/-- The beginning of a session, HBT.cpp:45: the catalogue of the snapshot before `start` is loaded. `disks i` is the directory of
snapshot `i`. -/
def launch (P : Nat) (b : Build K D S) (start : Int) (disks : Int → Disk K D) : Outcome (Fin P → List (Sub K D)) :=
  loadSubs P .source b.blank b.minIndex (start - 1) (b.snapId (start - 1)) (disks (start - 1))

/-- An iteration with `Save`, HBT.cpp:55-83. `ops` is the order in which the files are written. -/
def takeSnapshot [LE K] [DecidableLE K] [LT K] [DecidableLT K] [MassSum K] [Mul K] [LT R] [DecidableLT R] [LT E] [DecidableLT E]
    [Zero E] {P : Nat} (b : Build K D S) (w : SnapInput K D E S R P) (ops : List (WriteOp P)) (prev : Fin P → List (Sub K D))
    (disks : Int → Disk K D) : Outcome ((Fin P → List (Sub K D)) × (Int → Disk K D)) := do
  let out ← iteration b w prev
  let d ← saveOps (b.snapId w.snap) out ops (disks w.snap)
  .ok (out, fun i => if i = w.snap then d else disks i)

/-- The main loop, HBT.cpp:55-91, over the given snapshots. -/
def session [LE K] [DecidableLE K] [LT K] [DecidableLT K] [MassSum K] [Mul K] [LT R] [DecidableLT R] [LT E] [DecidableLT E]
    [Zero E] {P : Nat} (b : Build K D S) : List (SnapInput K D E S R P × List (WriteOp P)) → (Fin P → List (Sub K D)) →
    (Int → Disk K D) → Outcome ((Fin P → List (Sub K D)) × (Int → Disk K D))
  | [], st, disks => .ok (st, disks)
  | x :: xs, st, disks => do
    let y ← takeSnapshot b x.1 x.2 st disks
    session b xs y.1 y.2

end HBT.Model
