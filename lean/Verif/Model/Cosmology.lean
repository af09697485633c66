import Verif.Model.ProgramFiles
import Verif.Spec.Cosmology
/-!
# Model of the cosmology: from the header of a snapshot to the energies and the catalogue

`Cosmology_t`, src/snapshot.h:17-39, its way through the main loop, HBT.cpp:45-83, and the group `Cosmology` of the catalogue files,
src/io/subhalo_io.cpp:184-188, 307-312. The rest of the program is that of `Model/ProgramFiles.lean`. Operations on reals are exact; what is stored in
a member of type `HBTReal` is rounded (`fl`).
-/
namespace HBT.Model
open HBT HBT.Spec
variable {K D E S R Q : Type}

/-- `Cosmology_t`, src/snapshot.h:17-25. -/
structure Cosmology (Q : Type) where
  omegaM0 : Q
  omegaLambda0 : Q
  scale : Q
  hz : Q
  omegaZ : Q
  deriving DecidableEq

/-- `Hratio`, src/snapshot.h:32-34. -/
def hubbleRatio [Field Q] (sqrt : Q → Q) (e : Epoch Q) : Q :=
  sqrt (e.omegaM / (e.scale * e.scale * e.scale) + (1 - e.omegaM - e.omegaLambda) / (e.scale * e.scale) + e.omegaLambda)

/-- `Cosmology_t::Set`, src/snapshot.h:27-38. `h0` is `PhysicalConst::H0`. The arguments are `double`. -/
def setCosmology [Field Q] (sqrt fl : Q → Q) (h0 : Q) (e : Epoch Q) : Cosmology Q where
  omegaM0 := fl e.omegaM
  omegaLambda0 := fl e.omegaLambda
  scale := fl e.scale
  hz := fl (hubbleRatio sqrt e * h0)
  omegaZ := fl (e.omegaM / (e.scale * e.scale * e.scale) / hubbleRatio sqrt e / hubbleRatio sqrt e)

/-- `HaloVirialFactors`, src/snapshot.cpp:328-336: `virialF_tophat`, `virialF_b200`, `virialF_c200`. -/
def virialFactors [Field Q] (c : Cosmology Q) : Q × Q × Q :=
  let x := c.omegaZ - 1
  (18 * (31416 / 10000) * (31416 / 10000) + 82 * x - 39 * x * x, 200 * c.omegaZ, 200)

/-- What the readers take from the header, on each process: `Cosmology.Set(Header.ScaleFactor, Header.OmegaM0, Header.OmegaLambda0)`,
src/io/gadget_io.cpp:221 and src/io/apostle_io.cpp:363, called from src/io/snapshot_io.cpp:19-43. With the format `mysnapshot` nothing is set (`none`). -/
def readCosmology [Field Q] [LinearOrder Q] [IsStrictOrderedRing Q] [FloorRing Q] (P : Nat) (rd : Readers D S Q) (fl : Q → Q) (h0 : Q)
    (f : InputFiles Q) : Outcome (Fin P → Option (Cosmology Q)) :=
  if rd.snapshotFormat = "gadget" then do
    let out ← loadGadget rd.gadget P f.gadget
    .ok (fun r => some (setCosmology rd.gadget.sqrt fl h0 ⟨(out r).1.1, (out r).1.2.1, (out r).1.2.2⟩))
  else if rd.snapshotFormat = "apostle" then do
    let out ← loadHydro (hydroEnv rd.gadget) P false (rd.blank, none) f.hydro
    .ok (fun r => some (setCosmology rd.gadget.sqrt fl h0 ⟨(out r).1.1, (out r).1.2.1, (out r).1.2.2⟩))
  else if rd.snapshotFormat = "mysnapshot" then .ok (fun _ => none)
  else .abort

/-- `Cosmology=snapshot.Cosmology` in `UpdateParticles`, src/subhalo.cpp:185: `old` is that of `subsnap` before. (As src/halo.cpp:60.) -/
def updateCosmology {P : Nat} (part _old : Fin P → Option (Cosmology Q)) : Fin P → Option (Cosmology Q) := part

/-- The group `Cosmology`, src/io/subhalo_io.cpp:307-312. -/
def writeGroup (c : Cosmology Q) : CosmoGroup Q where
  omegaM0 := c.omegaM0
  omegaLambda0 := c.omegaLambda0
  hubbleParam := c.hz
  scaleFactor := c.scale

/-- Reading the group, src/io/subhalo_io.cpp:184-188: the Hubble parameter is read, and overwritten by `Set`. -/
def readGroup [Field Q] (sqrt fl : Q → Q) (h0 : Q) (g : CosmoGroup Q) : Cosmology Q :=
  setCosmology sqrt fl h0 ⟨g.scaleFactor, g.omegaM0, g.omegaLambda0⟩

/-- The groups of the files of a snapshot, by file number (they are in the `SubSnap` files, see `Disk`). Part of `saveGroups`,
src/io/subhalo_io.cpp:103-116. -/
abbrev CosmoDisk (Q : Type) := Nat → Option (CosmoGroup Q)

/-- The part of `perform` about the group, src/io/subhalo_io.cpp:307-312. Writing a cosmology that was never set is undefined. -/
def performGroup {P : Nat} (cur : Fin P → Option (Cosmology Q)) (disk : CosmoDisk Q) : WriteOp P → Outcome (CosmoDisk Q)
  | .sub r => match cur r with
    | none => .ub
    | some c => .ok (fun i => if i = r.val then some (writeGroup c) else disk i)
  | .src _ => .ok disk

/-- The part of `saveOps` about the group, src/io/subhalo_io.cpp:275-296. -/
def saveGroups {P : Nat} (cur : Fin P → Option (Cosmology Q)) (ops : List (WriteOp P)) (disk : CosmoDisk Q) : Outcome (CosmoDisk Q) :=
  ops.foldlM (performGroup cur) disk

/-- The part of `readFiles` about the group, src/io/subhalo_io.cpp:154-155 with 184-188: each file overwrites the cosmology. -/
def readCosmoGroups [Field Q] (sqrt fl : Q → Q) (h0 : Q) (disk : CosmoDisk Q) : Nat → Nat → Option (Cosmology Q) → Outcome (Option (Cosmology Q))
  | 0, _, cur => .ok cur
  | n + 1, i, _ => match disk i with
    | none => .ub
    | some g => readCosmoGroups sqrt fl h0 disk n (i + 1) (some (readGroup sqrt fl h0 g))

/-- The part of `loadSubs` about the group, src/io/subhalo_io.cpp:118-173, on `P` processes: `nfiles` is `NumberOfFiles`. A process that reads no file keeps
what it had. -/
def loadCosmology [Field Q] (P : Nat) (sqrt fl : Q → Q) (h0 : Q) (nfiles : Nat) (disk : CosmoDisk Q) (cur : Fin P → Option (Cosmology Q)) :
    Outcome (Fin P → Option (Cosmology Q)) :=
  allRanks P (fun r => do
    let t ← assignTasks r.val P nfiles
    readCosmoGroups sqrt fl h0 disk (t.2 - t.1) t.1 (cur r))

/-- The part of `loadBefore` about the cosmology, HBT.cpp:45: nothing is read before the first snapshot. -/
def cosmologyBefore [Field Q] (P : Nat) (sqrt fl : Q → Q) (h0 : Q) (c : Params ℚ) (first : Int) (disks : Int → Disk K D) (groups : Int → CosmoDisk Q) :
    Outcome (Fin P → Option (Cosmology Q)) :=
  if first - 1 < c.minSnapshotIndex then .ok (fun _ => none)
  else match (disks (first - 1)).sub 0 with
    | none => .ub
    | some f => loadCosmology P sqrt fl h0 f.numberOfFiles (groups (first - 1)) (fun _ => none)

/-- The loop of `main`, HBT.cpp:55-91, as `fileLoop`, with the cosmology: `cur` is `subsnap.Cosmology`; the kinetic distances, the gravity solver and
the sink criterion of a snapshot (`input`) use it (`epoch` in src/subhalo_unbind.cpp:82, src/gravity_tree.cpp:163, src/snapshot.h:100-111). -/
def cosmoLoop [Field Q] [LinearOrder Q] [IsStrictOrderedRing Q] [FloorRing Q] [LE K] [DecidableLE K] [LT K] [DecidableLT K] [MassSum K]
    [Mul K] [LT R] [DecidableLT R] [LT E] [DecidableLT E] [Zero E] {P : Nat} (b : Build K D S) (rd : Readers D S Q) (fl : Q → Q) (h0 : Q)
    (c : Params ℚ) (files : Int → InputFiles Q) (input : Int → (Fin P → Option (Cosmology Q)) → SnapInput K D E S R P × List (WriteOp P)) :
    Nat → Int → (Fin P → Option (Cosmology Q)) → (Fin P → List (Sub K D)) → (Int → Disk K D) → (Int → CosmoDisk Q) →
    Outcome ((Fin P → List (Sub K D)) × (Int → Disk K D) × (Int → CosmoDisk Q))
  | 0, _, _, st, disks, groups => .ok (st, disks, groups)
  | n + 1, i, cur, st, disks, groups => do
    let _ ← setSnapshotIndex c i
    let part ← readCosmology P rd fl h0 (files i)
    let cur := updateCosmology part cur
    let x := inputAt (fun j => input j cur) i
    let y ← fileSnapshot b rd files x.1 x.2 st disks
    let g ← saveGroups cur x.2 (groups i)
    if i = (2 : Int) ^ 31 - 1 then .ub
    else cosmoLoop b rd fl h0 c files input n (i + 1) cur y.1 y.2 (fun j => if j = i then g else groups j)

/-- `main`, HBT.cpp:16-95, as `programOnFiles`, with the cosmology. `PhysicalConst::H0` comes from the configuration (src/config_parser.cpp:95). -/
def cosmoProgram [Field Q] [LinearOrder Q] [IsStrictOrderedRing Q] [FloorRing Q] [LE K] [DecidableLE K] [LT K] [DecidableLT K] [MassSum K]
    [Mul K] [LT R] [DecidableLT R] [LT E] [DecidableLT E] [Zero E] {P : Nat} [NeZero P] (wide : Nat) (readReal : List Char → ℚ → ℚ)
    (printReal : ℚ → List Char) (version : List Char) (env : Surroundings) (c0 : Fin P → Params ℚ) (real : ℚ → K) (realQ : ℚ → Q)
    (fixed : Build K D S) (rd : Readers D S Q) (fl : Q → Q) (files : Int → InputFiles Q)
    (input : Int → (Fin P → Option (Cosmology Q)) → SnapInput K D E S R P × List (WriteOp P)) (args : List (List Char)) (disks : Int → Disk K D)
    (groups : Int → CosmoDisk Q) : Outcome ((Int → Disk K D) × List (List Char) × (Int → CosmoDisk Q)) := do
  let x ← parseHBTParams wide readReal env (c0 0) args
  let cs ← broadCast 0 (fun r => if r = 0 then x.1 else c0 r)
  let b := buildOf real fixed (cs 0)
  let rd := readersOf realQ rd (cs 0)
  let h0 := realQ (cs 0).constH0
  let st ← loadBefore P b (cs 0) x.2.1 disks
  let cur ← cosmologyBefore P rd.gadget.sqrt fl h0 (cs 0) x.2.1 disks groups
  let y ← cosmoLoop b rd fl h0 (cs 0) files input (x.2.2 + 1 - x.2.1).toNat x.2.1 cur st disks groups
  .ok (y.2.1, dumpParameters printReal version x.1, y.2.2)

end HBT.Model
