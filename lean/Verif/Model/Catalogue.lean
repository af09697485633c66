import Verif.Model.MyMath
import Verif.Model.Mpi
import Verif.Spec.Catalogue
/-!
# Model of saving and loading catalogues, src/io/subhalo_io.cpp

A file is its list of datasets. Left out: `Cosmology` (see `Model/Cosmology.lean`), `NumberOfNewSubhalos`, `NumberOfFakeHalos` (not read
back or not used), `ParticleProperties` and `BindingEnergies` (optional output, see `Model/OptionalOutput.lean`). File names (103-116) are
distinct for distinct file numbers, so a directory is a function of the file number.
-/
namespace HBT.Model
open HBT.Spec
variable {K D : Type}

/-- A `SubSnap` file, src/io/subhalo_io.cpp:297-396. -/
structure SubFile (K D : Type) where
  numberOfFiles : Nat
  snapshotId : Int
  /-- `NumberOfSubhalosInAllFiles` -/
  numAll : Nat
  /-- `NestedSubhalos` -/
  nested : List (List Int)
  /-- `SubhaloParticles` -/
  boundIds : List (List Int)
  /-- `Subhalos`: the members inserted in `BuildHDFDataType` (12-90), i.e. all but `Particles`, `Energies` and
  `NestedSubhalos`, which are empty here -/
  table : List (Sub K D)
  /-- the column `MostBoundParticleId` of `Subhalos` -/
  mostBound : List Int
  deriving DecidableEq

/-- The directory of a snapshot (src/io/subhalo_io.cpp:103-116): the `SubSnap` and `SrcSnap` files. Of a
`SrcSnap` file the dataset `SrchaloParticles`. -/
structure Disk (K D : Type) where
  sub : Nat → Option (SubFile K D)
  src : Nat → Option (List (List Int))

/-- `IdBuffer`, src/io/subhalo_io.cpp:373-389. -/
def idBuffer (subs : List (Sub K D)) : List Int := subs.flatMap (fun s => s.particles.map Particle.id)

/-- Writing variable-length lists starting at the offsets of the subhaloes, with lengths `len`: the loop
src/io/subhalo_io.cpp:380-388 with 390 (`len` is `Nbound`) and 401-403 (`len` is `Particles.size()`). -/
def writeIds (len : Sub K D → Nat) (buffer : List Int) : Nat → List (Sub K D) → Outcome (List (List Int))
  | _, [] => .ok []
  | offset, s :: rest => do
    let l ← slice buffer offset (len s)
    let ls ← writeIds len buffer (offset + s.particles.length) rest
    .ok (l :: ls)

/-- `DuplicateMostBoundParticleId`, src/io/subhalo_io.cpp:96-102. -/
def mostBoundId (s : Sub K D) : Int :=
  match s.particles with
  | [] => nullId
  | p :: _ => p.id

/-- `WriteFile`, src/io/subhalo_io.cpp:297-396: the `SubSnap` file. -/
def writeSub (snapId : Int) (nfiles numAll : Nat) (subs : List (Sub K D)) : Outcome (SubFile K D) := do
  let ids ← writeIds Sub.nbound (idBuffer subs) 0 subs
  .ok { numberOfFiles := nfiles, snapshotId := snapId, numAll := numAll, nested := subs.map Sub.nested,
        boundIds := ids, table := subs.map (fun s => { s with particles := [], nested := [] }),
        mostBound := subs.map mostBoundId }

/-- `WriteFile`, src/io/subhalo_io.cpp:398-405: the `SrcSnap` file. -/
def writeSrc (subs : List (Sub K D)) : Outcome (List (List Int)) :=
  writeIds (fun s => s.particles.length) (idBuffer subs) 0 subs

/-- One of the files a process writes. Part of `saveOps`, src/io/subhalo_io.cpp:275-296. -/
inductive WriteOp (P : Nat)
  | sub (r : Fin P)
  | src (r : Fin P)
  deriving DecidableEq

/-- `MPI_Allreduce` of the number of subhaloes, src/io/subhalo_io.cpp:280-281. -/
def totalSubs {P : Nat} (st : Fin P → List (Sub K D)) : Nat := ((List.ofFn st).map List.length).sum

/-- A process writes one of its files (created anew, `H5F_ACC_TRUNC`). A file is written as a whole.
Part of `saveOps`, src/io/subhalo_io.cpp:275-296. -/
def perform {P : Nat} (snapId : Int) (st : Fin P → List (Sub K D)) (disk : Disk K D) : WriteOp P → Outcome (Disk K D)
  | .sub r => do
    let f ← writeSub snapId P (totalSubs st) (st r)
    .ok { disk with sub := fun i => if i = r.val then some f else disk.sub i }
  | .src r => do
    let f ← writeSrc (st r)
    .ok { disk with src := fun i => if i = r.val then some f else disk.src i }

/-- `Save`, src/io/subhalo_io.cpp:275-296: the files are written in the order `ops`, which depends on the
schedule. -/
def saveOps {P : Nat} (snapId : Int) (st : Fin P → List (Sub K D)) (ops : List (WriteOp P)) (disk : Disk K D) :
    Outcome (Disk K D) :=
  ops.foldlM (perform snapId st) disk

/-- The assignment of the read lists to the new subhaloes, src/io/subhalo_io.cpp:223-229, 241-245. -/
def fillSubs (blank : D) : List (Sub K D) → List (List Int) → List (List Int) → List (Sub K D)
  | s :: ss, ids :: idss, n :: ns =>
    { s with particles := ids.map (fun i => ⟨i, blank⟩), nested := n } :: fillSubs blank ss idss ns
  | _, _, _ => []

/-- `ReadFile`, src/io/subhalo_io.cpp:174-273. A missing file leaves the variables it should set
uninitialised. `blank` stands for the members of `Particle_t` other than the id, which are not set. -/
def readFile (w : Want) (blank : D) (snapId : Int) (disk : Disk K D) (iFile : Nat) : Outcome (List (Sub K D)) :=
  match disk.sub iFile with
  | none => .ub
  | some f => do
    Outcome.assert (decide (f.snapshotId = snapId))
    if f.table.length = 0 then .ok []
    else do
      let ids ← match w with
        | .table => Outcome.ok (f.table.map (fun _ => []))
        | .bound => Outcome.ok f.boundIds
        | .source => match disk.src iFile with
          | none => Outcome.ub
          | some l => Outcome.ok l
      Outcome.assert (decide (ids.length = f.table.length))
      Outcome.assert (decide (f.nested.length = f.table.length))
      .ok (fillSubs blank f.table ids f.nested)

/-- The loop over files, src/io/subhalo_io.cpp:154-155: `n` files from `iFile` on. -/
def readFiles (w : Want) (blank : D) (snapId : Int) (disk : Disk K D) : Nat → Nat → Outcome (List (Sub K D))
  | 0, _ => .ok []
  | n + 1, iFile => do
    let a ← readFile w blank snapId disk iFile
    let b ← readFiles w blank snapId disk n (iFile + 1)
    .ok (a ++ b)

/-- `Load`, src/io/subhalo_io.cpp:118-173, on `P` processes. `minIndex` is `MinSnapshotIndex`, `snapId` the id of
the snapshot (`SetSnapshotIndex`). The list of subhaloes is empty before. -/
def loadSubs (P : Nat) (w : Want) (blank : D) (minIndex index snapId : Int) (disk : Disk K D) :
    Outcome (Fin P → List (Sub K D)) :=
  if index < minIndex then .ok (fun _ => [])
  else match disk.sub 0 with
    | none => .ub
    | some f => do
      let ld ← allRanks P (fun r => do
        let t ← assignTasks r.val P f.numberOfFiles
        readFiles w blank snapId disk (t.2 - t.1) t.1)
      if totalSubs ld ≠ f.numAll then .abort else .ok ld

end HBT.Model
