import Verif.Model.Program
import Verif.Model.Input
/-!
# Model of the program on files: command line, parameter file, snapshot files, group catalogues

`Model/Program.lean` with the readers of `Model/Input.lean`.
-/
namespace HBT.Model
open HBT
variable {K D E S R Q : Type}

/-- What the readers take from the configuration. `rd` has the rest. Part of `programOnFiles`, HBT.cpp:16-95. -/
def readersOf (real : ℚ → Q) (rd : Readers D S Q) (c : Params ℚ) : Readers D S Q :=
  { rd with
    snapshotFormat := String.ofList c.snapshotFormat
    groupFormat := String.ofList c.groupFileFormat
    mask := BitVec.ofInt 64 c.groupParticleIdMask
    gadget := { rd.gadget with
      boxSize := real c.boxSize
      periodic := c.periodicBoundaryOn
      hasId := c.snapshotHasIdBlock
      idRankStyle := c.particleIdRankStyle
      idUnsigned := c.snapshotIdUnsigned } }

/-- The loop of `main`, HBT.cpp:55-91, with the readers: see `mainLoop` and `fileSnapshot`. -/
def fileLoop [Field Q] [LinearOrder Q] [IsStrictOrderedRing Q] [FloorRing Q] [LE K] [DecidableLE K] [LT K] [DecidableLT K] [MassSum K]
    [Mul K] [LT R] [DecidableLT R] [LT E] [DecidableLT E] [Zero E] {P : Nat} (b : Build K D S) (rd : Readers D S Q)
    (c : Params ℚ) (files : Int → InputFiles Q) (input : Int → SnapInput K D E S R P × List (WriteOp P)) :
    Nat → Int → (Fin P → List (Sub K D)) → (Int → Disk K D) → Outcome ((Fin P → List (Sub K D)) × (Int → Disk K D))
  | 0, _, st, disks => .ok (st, disks)
  | n + 1, i, st, disks => do
    let _ ← setSnapshotIndex c i
    let y ← fileSnapshot b rd files (inputAt input i).1 (inputAt input i).2 st disks
    if i = (2 : Int) ^ 31 - 1 then .ub
    else fileLoop b rd c files input n (i + 1) y.1 y.2

/-- `main`, HBT.cpp:16-95: see `program`. `files i` are the files of the snapshot with index `i` (C46: their names); `input` has the schedules
and the gravity solver only. -/
def programOnFiles [Field Q] [LinearOrder Q] [IsStrictOrderedRing Q] [FloorRing Q] [LE K] [DecidableLE K] [LT K] [DecidableLT K] [MassSum K]
    [Mul K] [LT R] [DecidableLT R] [LT E] [DecidableLT E] [Zero E] {P : Nat} [NeZero P] (wide : Nat) (readReal : List Char → ℚ → ℚ)
    (printReal : ℚ → List Char) (version : List Char) (env : Surroundings) (c0 : Fin P → Params ℚ) (real : ℚ → K) (realQ : ℚ → Q)
    (fixed : Build K D S) (rd : Readers D S Q) (files : Int → InputFiles Q)
    (input : Int → SnapInput K D E S R P × List (WriteOp P)) (args : List (List Char)) (disks : Int → Disk K D) :
    Outcome ((Int → Disk K D) × List (List Char)) := do
  let x ← parseHBTParams wide readReal env (c0 0) args
  let cs ← broadCast 0 (fun r => if r = 0 then x.1 else c0 r)
  let st ← loadBefore P (buildOf real fixed (cs 0)) (cs 0) x.2.1 disks
  let y ← fileLoop (buildOf real fixed (cs 0)) (readersOf realQ rd (cs 0)) (cs 0) files input (x.2.2 + 1 - x.2.1).toNat x.2.1 st disks
  .ok (y.2, dumpParameters printReal version x.1)

end HBT.Model
