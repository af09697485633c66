import Verif.Model.SpmdPartition
import Verif.Model.SpmdExchange
import Verif.Model.SpmdHosts
import Verif.Model.SpmdNest
import Verif.Model.Main
/-!
# The main loop as programs of the processes, HBT.cpp:41-90

Process `r` runs `mainLoop … r`. Its steps are those of `Model/Main.lean`, with the MPI calls that happen between them. What a process is given
of a snapshot is `own w r`: its own particles, groups, orders of parallel iterations and so on.
-/
namespace HBT.Spmd
open HBT.Model HBT.Spec
variable {P : Nat} {K D E S R α : Type}

/-- What process `r` is given of a snapshot: nothing of the other processes. The inputs are those of HBT.cpp:57-71. -/
def own (w : SnapInput K D E S R P) (r : Fin P) : SnapInput K D E S R P where
  snap := w.snap
  parts := fun _ => w.parts r
  halos := fun _ => w.halos r
  tableOrder := fun _ => w.tableOrder r
  feedOrder := fun _ => w.feedOrder r
  nestOrder := fun _ => w.nestOrder r
  maskOrder := fun _ => w.maskOrder r
  hostOrder := fun _ => w.hostOrder r
  loneOrder := fun _ => w.loneOrder r
  mergeOrder := fun _ => w.mergeOrder r
  eachOrder := fun _ => w.eachOrder r
  dist := fun _ => w.dist r
  env := fun _ => w.env r
  env' := fun _ => w.env' r
  sunk := fun _ => w.sunk r

/-- Process 0. Part of `loadCatalogue`, src/io/subhalo_io.cpp:118-173. -/
def rank0 (r : Fin P) : Fin P := ⟨0, Nat.lt_of_le_of_lt (Nat.zero_le _) r.isLt⟩

/-- `timer.Tick(world.Communicator)`, src/mymath.h:76-81. -/
def tick : Prog P Unit := barrier

/-! ## Input and output in turns -/

/-- The barrier that ends a round of `MaxConcurrentIO` processes, src/io/subhalo_io.cpp:147-151, 285-289: the new `ireader`. -/
def endRound (maxIo ireader : Int) : Prog P Int := if ireader = maxIo then barrier >>= fun _ => .ret 0 else .ret ireader

/-- The loop in which each process has its turn, src/io/subhalo_io.cpp:145-157, 283-294; `n` turns are left, the next is that of process `i`.
`act` is what a process does in its turn. -/
def turns (maxIo : Int) (r : Fin P) (act : α → Outcome α) : Nat → Nat → Int → α → Prog P α
  | 0, _, _, a => .ret a
  | n + 1, i, ireader, a => do
    let ireader ← endRound maxIo ireader
    let a ← lift (if i = r.val then act a else .ok a)
    turns maxIo r act n (i + 1) (ireader + 1) a

/-- `NumberOfFiles` and `TotNumberOfSubs`, src/io/subhalo_io.cpp:128-138: only process 0 reads them (the others have `junk`). -/
def loadHeader (isRoot : Bool) (junk : Nat) (disk : Disk K D) : Outcome (Nat × Nat) :=
  if isRoot then match disk.sub 0 with
    | none => .ub
    | some f => .ok (f.numberOfFiles, f.numAll)
  else .ok (junk, junk)

/-- The files of process `r`, src/io/subhalo_io.cpp:143, 152-156. -/
def loadOwn (w : Want) (blank : D) (snapId : Int) (disk : Disk K D) (r : Fin P) (nfiles : Nat) (subs : List (Sub K D)) :
    Outcome (List (Sub K D)) := do
  let t ← assignTasks r.val P nfiles
  let new ← readFiles w blank snapId disk (t.2 - t.1) t.1
  .ok (subs ++ new)

/-- The check on process 0, src/io/subhalo_io.cpp:163-171. -/
def loadCheck (isRoot : Bool) (expected : Nat) (total : Option Nat) : Outcome Unit :=
  if isRoot then match total with
    | none => .ub
    | some n => if n ≠ expected then .abort else .ok ()
  else .ok ()

/-- `Load` of a catalogue, src/io/subhalo_io.cpp:118-173. -/
def loadCatalogue (maxIo : Int) (junk : Nat) (w : Want) (blank : D) (minIndex index snapId : Int) (disk : Disk K D) (r : Fin P) :
    Prog P (List (Sub K D)) :=
  if index < minIndex then .ret []
  else do
    let header ← lift (loadHeader (decide (r = rank0 r)) junk disk)
    let nfiles ← bcast1 (rank0 r) header.1
    let subs ← turns maxIo r (loadOwn w blank snapId disk r nfiles) P 0 0 []
    let total ← reduce1 (fun a b => a + b) (rank0 r) subs.length
    let _ ← lift (loadCheck (decide (r = rank0 r)) header.2 total)
    .ret subs

/-- The files a process has written: the index of the snapshot, the `SubSnap` and the `SrcSnap` file with the number of the process.
Part of `saveOwn`, src/io/subhalo_io.cpp:297-406. -/
abbrev Written (K D : Type) := List (Int × SubFile K D × List (List Int))

/-- `WriteFile`, src/io/subhalo_io.cpp:297-406, recorded. -/
def saveOwn (snap snapId : Int) (total : Nat) (P : Nat) (subs : List (Sub K D)) (log : Written K D) : Outcome (Written K D) := do
  let f ← writeSub snapId P total subs
  let g ← writeSrc subs
  .ok (log ++ [(snap, f, g)])

/-- `Save`, src/io/subhalo_io.cpp:275-296. -/
def saveCatalogue (maxIo snap snapId : Int) (r : Fin P) (subs : List (Sub K D)) (log : Written K D) : Prog P (Written K D) := do
  let total ← allreduce1 (fun a b => a + b) subs.length
  turns maxIo r (saveOwn snap snapId total P subs) P 0 0 log

/-! ## One iteration -/

/-- `ParticleSnapshot_t::Load` after the reader, src/io/snapshot_io.cpp:45-48. -/
def place (b : Build K D S) (r : Fin P) (w : SnapInput K D E S R P) : Prog P (SnapRank D × List Int) := do
  let x ← exchangeParts b.sortIds r (w.parts r)
  let snap ← lift (fillHash b (w.tableOrder r) x.1)
  .ret (snap, x.2)

/-- `HaloSnapshot_t::UpdateParticles`, src/halo.cpp:57-76. -/
def renewHalos (b : Build K D S) (ranges : List Int) (snap : SnapRank D) (halos : List (HaloRec S (Particle D))) :
    Prog P (List (HaloRec S (Particle D))) :=
  if b.fullGroups then .ret halos
  else do
    let x ← query b.needHash b.chunk b.fill b.sortTagged ranges snap (halos.map HaloRec.particles)
    let halos ← lift (putHalos b.dmOnly halos x)
    spreadHalos b.chunk b.fill b.sortRanks b.average (b.cell P) halos []

/-- `SubhaloSnapshot_t::UpdateParticles`, src/subhalo.cpp:183-192. -/
def renewSubs [MassSum K] (b : Build K D S) (ranges : List Int) (snap : SnapRank D) (subs : List (Sub K D)) : Prog P (List (Sub K D)) := do
  let x ← query b.needHash b.chunk b.fill b.sortTagged ranges snap (subs.map Sub.particles)
  lift (putSubs b subs x)

/-- The particles and groups, HBT.cpp:57-71. The number of groups, reduced to process 0 (src/io/halo_io.cpp:48-49), is only printed. -/
def inputStage [MassSum K] (b : Build K D S) (r : Fin P) (w : SnapInput K D E S R P) (prev : List (Sub K D)) :
    Prog P (SnapRank D × List (HaloRec S (Particle D)) × List (Sub K D)) := do
  let _ ← tick
  let x ← place b r w
  let _ ← reduce1 (fun a b => a + b) (rank0 r) (w.halos r).length
  let _ ← tick
  let halos ← renewHalos b x.2 x.1 (w.halos r)
  let _ ← tick
  let subs ← renewSubs b x.2 x.1 prev
  .ret (x.1, halos, subs)

/-- `AssignHosts` and the beginning of `PrepareCentrals`, src/subhalo_tracking.cpp:417-434, 522-528. -/
def prepareStage [MassSum K] [Mul K] [LT K] [DecidableLT K] [LT R] [DecidableLT R] (fuel : Nat) (b : Build K D S) (r : Fin P)
    (w : SnapInput K D E S R P) (snap : SnapRank D) (halos : List (HaloRec S (Particle D))) (subs : List (Sub K D)) :
    Prog P (Prepared K D S) := do
  let hosted ← assign fuel b.hostChunk (haloIndex b halos) (inSnapshot b snap) r subs
  lift (prepareRank b w r halos hosted)

/-- `RefineParticles`, HBT.cpp:76. -/
def refineRank [MassSum K] [LT E] [DecidableLT E] [Zero E] (b : Build K D S) (w : SnapInput K D E S R P) (r : Fin P)
    (p : Prepared K D S) (heads : List (List Nat)) (masked : List (Sub K D)) : Outcome (List (Sub K D)) :=
  refineParticles b.cfg (w.env r masked) w.snap masked.length (w.hostOrder r (List.range p.groups.length))
    (w.loneOrder r (p.field ++ (List.range p.nBirth).map (p.nOld + ·))) p.groups heads masked

/-- `MergeSubhalos`, HBT.cpp:79. -/
def mergeRank [MassSum K] [LT E] [DecidableLT E] [Zero E] (b : Build K D S) (w : SnapInput K D E S R P) (r : Fin P)
    (p : Prepared K D S) (heads : List (List Nat)) (refined : List (Sub K D)) : Outcome (List (Sub K D)) :=
  mergeSubhalos b.cfg (w.env' r refined) b.mass b.merging (w.sunk r refined) w.snap (refined.length + 1)
    (w.mergeOrder r (List.range p.groups.length)) (w.eachOrder r (List.range (p.nOld + p.nBirth))) p.groups heads refined

/-- The rest of `PrepareCentrals` (src/subhalo_tracking.cpp:529-532), unbinding, mergers and `UpdateTracks`, HBT.cpp:70-82. -/
def finishStage [LE K] [DecidableLE K] [MassSum K] [LT E] [DecidableLT E] [Zero E] (b : Build K D S) (r : Fin P)
    (w : SnapInput K D E S R P) (p : Prepared K D S) : Prog P (List (Sub K D)) := do
  let nested ← nest b.nestChunk b.sortKeys b.bsearch r (w.nestOrder r (List.range p.subs.length)) p.groups p.field p.subs
  let masked ← lift (maskSubhalos nested.1.length (w.maskOrder r (List.range p.groups.length)) p.groups nested.2 nested.1)
  let _ ← tick
  let refined ← lift (refineRank b w r p nested.2 masked)
  let _ ← tick
  let merged ← lift (mergeRank b w r p nested.2 refined)
  let _ ← tick
  update b.sortMass w.snap (p.halos.map (fun h => b.haloId h.shell)) p.nBirth nested.2 merged

/-- One iteration of the main loop, HBT.cpp:57-82. -/
def iterate [LE K] [DecidableLE K] [LT K] [DecidableLT K] [MassSum K] [Mul K] [LT R] [DecidableLT R] [LT E] [DecidableLT E]
    [Zero E] (fuel : Nat) (b : Build K D S) (r : Fin P) (w : SnapInput K D E S R P) (prev : List (Sub K D)) : Prog P (List (Sub K D)) := do
  let x ← inputStage b r w prev
  let _ ← tick
  let p ← prepareStage fuel b r w x.1 x.2.1 x.2.2
  finishStage b r w p

/-- The main loop, HBT.cpp:55-91. -/
def loop [LE K] [DecidableLE K] [LT K] [DecidableLT K] [MassSum K] [Mul K] [LT R] [DecidableLT R] [LT E] [DecidableLT E]
    [Zero E] (fuel : Nat) (maxIo : Int) (b : Build K D S) (r : Fin P) :
    List (SnapInput K D E S R P) → List (Sub K D) → Written K D → Prog P (List (Sub K D) × Written K D)
  | [], subs, log => .ret (subs, log)
  | w :: ws, subs, log => do
    let subs ← iterate fuel b r w subs
    let _ ← tick
    let log ← saveCatalogue maxIo w.snap (b.snapId w.snap) r subs log
    let _ ← tick
    loop fuel maxIo b r ws subs log

/-- A session, HBT.cpp:43-92: the catalogue of the snapshot before `start` is loaded, then the snapshots are taken one after the other. -/
def mainLoop [LE K] [DecidableLE K] [LT K] [DecidableLT K] [MassSum K] [Mul K] [LT R] [DecidableLT R] [LT E] [DecidableLT E]
    [Zero E] (fuel : Nat) (maxIo : Int) (junk : Nat) (b : Build K D S) (start : Int) (disks : Int → Disk K D) (r : Fin P)
    (ws : List (SnapInput K D E S R P)) : Prog P (List (Sub K D) × Written K D) := do
  let subs ← loadCatalogue maxIo junk .source b.blank b.minIndex (start - 1) (b.snapId (start - 1)) (disks (start - 1)) r
  loop fuel maxIo b r ws subs []

end HBT.Spmd
