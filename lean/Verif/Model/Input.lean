import Verif.Model.Main
import Verif.Model.GadgetSnap
import Verif.Model.GroupBytes
import Verif.Model.Hydro
import Verif.Model.Average
import Mathlib.Data.Fin.VecNotation
/-!
# Model of the input of the main loop: which reader loads what, HBT.cpp:55-62

The readers themselves are modelled in `Model/GadgetSnap.lean`, `Model/GroupBytes.lean`,
`Model/Hydro.lean` and `Model/Apostle.lean`.
-/
namespace HBT.Model
open HBT.Spec (SnapParticle GroupDir HydroFile)

variable {K D E S R Q : Type}

/-- The files of a snapshot: those of the Gadget format in the order of their numbers, those of the Apostle format likewise, and the
directories with the group catalogue. Part of `readParts`, src/io/snapshot_io.cpp:19-43. -/
structure InputFiles (Q : Type) where
  gadget : List (List Byte)
  hydro : List (HydroFile Q)
  groups : GroupDir

/-- What the readers depend on besides the build: configuration, library functions, what new variables hold.
Part of `readParts`, src/io/snapshot_io.cpp:19-43. -/
structure Readers (D S Q : Type) where
  /-- `HBTConfig.SnapshotFormat` -/
  snapshotFormat : String
  /-- `HBTConfig.GroupFileFormat` -/
  groupFormat : String
  /-- switches and configuration; the Apostle reader uses the same (`hydroEnv`) -/
  gadget : GadgetEnv Q
  /-- the members of a particle other than the id -/
  data : SnapParticle Q → D
  /-- `HBTConfig.GroupParticleIdMask` -/
  mask : BitVec 64
  /-- a new `Particle_t` -/
  blank : SnapParticle Q
  /-- a new `Halo_t` with the given `HaloId` -/
  newHalo : Int → S
  sorts : ApostleSorts (SnapParticle Q) (Weighted Q)
  /-- the `ComovingAveragePosition` of a new `Halo_t` -/
  com : Fin 3 → Q
  /-- `floor(pow(N,1./dim))`, see `largestRootFactor` -/
  root : Nat → Nat → Nat

/-- What the Apostle reader depends on, as far as both readers do. Part of `readParts`, src/io/snapshot_io.cpp:19-43. -/
def hydroEnv (g : GadgetEnv Q) : HydroEnv Q where
  sqrt := g.sqrt
  dmOnly := g.dmOnly
  thermal := g.thermal
  intBytes := g.intBytes
  boxSize := g.boxSize
  periodic := g.periodic

/-- A particle as the main loop has it: its id and the rest. Part of `readParts`, src/io/snapshot_io.cpp:19-43. -/
def Readers.particle (rd : Readers D S Q) (p : SnapParticle Q) : Particle D := ⟨p.id, rd.data p⟩

/-- `step` of `DecideTargetProcessor`, src/io/apostle_io.cpp:654-657. -/
def gridStep [Field Q] (boxsize : Q) : List Nat → Outcome (Fin 3 → Q)
  | [a, b, c] => .ok ![boxsize / a, boxsize / b, boxsize / c]
  | _ => .ub

/-- `IsGadgetGroup`, src/io/gadget_group_io.cpp:459-462. -/
def isGadgetGroup (fmt : String) : Bool := fmt.toList.take 6 = "gadget".toList

/-- `IsApostleGroup`, src/io/apostle_io.cpp:505-508. -/
def isApostleGroup (fmt : String) : Bool := fmt.toList.take 7 = "apostle".toList

/-- `ParticleSnapshot_t::Load` up to the reader, src/io/snapshot_io.cpp:19-43. With the format `mysnapshot` nothing is read. -/
def readParts [Field Q] [LinearOrder Q] [IsStrictOrderedRing Q] [FloorRing Q] (P : Nat) (rd : Readers D S Q)
    (f : InputFiles Q) : Outcome (Fin P → List (Particle D)) :=
  if rd.snapshotFormat = "gadget" then do
    let out ← loadGadget rd.gadget P f.gadget
    .ok (fun r => (out r).2.map rd.particle)
  else if rd.snapshotFormat = "apostle" then do
    let out ← loadHydro (hydroEnv rd.gadget) P false (rd.blank, none) f.hydro
    .ok (fun r => (out r).2.map (fun p => rd.particle p.1))
  else if rd.snapshotFormat = "mysnapshot" then .ok (fun _ => [])
  else .abort

/-- `HaloSnapshot_t::Load`, src/io/halo_io.cpp:19-38. The particles of a group read from a Gadget catalogue have nothing but an id
(src/io/gadget_group_io.cpp:436-443). `MergeHalos` ends with `AverageCoordinates` (src/io/apostle_io.cpp:697-698);
the grid of processes is found in `DecideTargetProcessor` (654-657). With the format
`my_group_format` nothing is read. -/
def readHalos [Field Q] [LinearOrder Q] [IsStrictOrderedRing Q] [FloorRing Q] (P : Nat) (b : Build K D S) (rd : Readers D S Q)
    (f : InputFiles Q) : Outcome (Fin P → List (HaloRec S (Particle D))) :=
  if isGadgetGroup rd.groupFormat then do
    let out ← loadGroupFiles rd.gadget.le rd.groupFormat rd.mask rd.gadget.idRankStyle P f.groups
    .ok (fun r => (out r).map (fun g => ⟨rd.newHalo g.1, g.2.map (fun i => ⟨i, rd.data rd.blank⟩)⟩))
  else if isApostleGroup rd.groupFormat then do
    let dims ← closestFactors rd.root P 3
    let step ← gridStep rd.gadget.boxSize dims
    let out ← loadHydroGroups (hydroEnv rd.gadget) P b.chunk rd.blank rd.sorts
      (fun l => averagePosition rd.gadget.periodic rd.gadget.boxSize rd.com (l.map (fun p => (p.mass, p.pos))))
      (reduceHaloRank rd.gadget.periodic rd.gadget.boxSize step (dims.map Int.ofNat)) (rd.blank, none) f.hydro
    .ok (fun r => (out r).map (fun h => b.average ⟨rd.newHalo h.shell, h.particles.map rd.particle⟩))
  else if rd.groupFormat = "my_group_format" then .ok (fun _ => [])
  else .abort

/-- An iteration of the main loop with reading and `Save`, HBT.cpp:55-83, on the files of the snapshot. `w` brings its index, the
schedules and the gravity solver; its particles and groups are those that are read (`partsnap` and `halosnap` are new variables in each
iteration). The groups are read before the particles are placed on the processes; in the program it is the other way round, which
matters only if both fail. -/
def fileSnapshot [Field Q] [LinearOrder Q] [IsStrictOrderedRing Q] [FloorRing Q] [LE K] [DecidableLE K] [LT K] [DecidableLT K] [MassSum K]
    [Mul K] [LT R] [DecidableLT R] [LT E] [DecidableLT E] [Zero E] {P : Nat} (b : Build K D S) (rd : Readers D S Q)
    (files : Int → InputFiles Q) (w : SnapInput K D E S R P) (ops : List (WriteOp P)) (prev : Fin P → List (Sub K D))
    (disks : Int → Disk K D) : Outcome ((Fin P → List (Sub K D)) × (Int → Disk K D)) := do
  let parts ← readParts P rd (files w.snap)
  let halos ← readHalos P b rd (files w.snap)
  takeSnapshot b { w with parts := parts, halos := halos } ops prev disks

/-- The main loop with reading, HBT.cpp:55-91. `files i` are the files of the snapshot with index `i`. -/
def fileSession [Field Q] [LinearOrder Q] [IsStrictOrderedRing Q] [FloorRing Q] [LE K] [DecidableLE K] [LT K] [DecidableLT K] [MassSum K]
    [Mul K] [LT R] [DecidableLT R] [LT E] [DecidableLT E] [Zero E] {P : Nat} (b : Build K D S) (rd : Readers D S Q)
    (files : Int → InputFiles Q) : List (SnapInput K D E S R P × List (WriteOp P)) → (Fin P → List (Sub K D)) →
    (Int → Disk K D) → Outcome ((Fin P → List (Sub K D)) × (Int → Disk K D))
  | [], st, disks => .ok (st, disks)
  | x :: xs, st, disks => do
    let y ← fileSnapshot b rd files x.1 x.2 st disks
    fileSession b rd files xs y.1 y.2

end HBT.Model
