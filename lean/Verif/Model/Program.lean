import Verif.Model.Main
import Verif.Model.ConfigSync
import Verif.Model.SnapNumber
/-!
# Model of the program from its command line on

HBT.cpp:16-95 and `ParseHBTParams`, src/config_parser.cpp:158-180. Messages and timing.log are left out.
-/
namespace HBT.Model
open HBT
variable {K D E S R : Type}

/-- `atoi` of the C library: white space, a sign, digits; the rest is ignored, and no digits give 0. A number that is not an `int`
is undefined. Called at src/config_parser.cpp:173-175. -/
def atoi (cs : List Char) : Outcome Int :=
  let s := splitSign (cs.dropWhile isSpace)
  let num := s.2.takeWhile (fun c => decide (hexVal c < 10))
  let v : Int := if s.1 then -(digitsVal 10 num : Int) else (digitsVal 10 num : Int)
  if v < -(2 : Int) ^ 31 ∨ (2 : Int) ^ 31 ≤ v then .ub else .ok v

/-- What the process that parses the arguments finds: the lines of the parameter file with the given name, and of
`snapshotlist.txt` (if there is one). Part of `parseHBTParams`, src/config_parser.cpp:158-180. -/
structure Surroundings where
  file : List Char → Option (List (List Char))
  list : Option (List (List Char))

/-- `ParseHBTParams`, src/config_parser.cpp:158-180, with the opening of the file (src/config_parser.cpp:76-82). `args` are
`argv[1]`, `argv[2]`, … -/
def parseHBTParams [Field R] (wide : Nat) (readReal : List Char → R → R) (env : Surroundings) (c0 : Params R) (args : List (List Char)) :
    Outcome (Params R × Int × Int) :=
  match args with
  | [] => .abort
  | name :: rest =>
    match env.file name with
    | none => .abort
    | some lines => do
      let c ← parseConfig wide readReal env.list c0 lines
      match rest with
      | [] => .ok (c, c.minSnapshotIndex, c.maxSnapshotIndex)
      | [a] => do
        let first ← atoi a
        .ok (c, first, first)
      | a :: b :: _ => do
        let first ← atoi a
        let last ← atoi b
        .ok (c, first, last)

/-- The parameters that the main loop uses, taken from the configuration. `real` converts to the type of masses; `fixed` has what
does not come from the configuration. (The other parameters enter through the inputs of a snapshot.)
The parameters are src/config_parser.h:22-76. -/
def buildOf (real : ℚ → K) (fixed : Build K D S) (c : Params ℚ) : Build K D S :=
  { fixed with
    needHash := c.particleIdNeedHash
    fullGroups := c.groupLoadedFullParticle
    ratio := real c.majorProgenitorMassRatio
    cfg := { minNum := c.minNumPartOfSub.toNat, maxSample := c.maxSampleSizeOfPotentialEstimate.toNat, refine := c.refineMostboundParticle
             prec := c.boundMassPrecision, relax := c.sourceSubRelaxFactor, fl := fixed.cfg.fl }
    merging := c.mergeTrappedSubhalos
    minIndex := c.minSnapshotIndex
    snapId := fun i => match setSnapshotIndex c i with
      | .ok s => s.id
      | _ => nullSnap }

/-- `subsnap.Load(world, snapshot_start-1)`, HBT.cpp:45, with `SetSnapshotIndex` (src/io/subhalo_io.cpp:126) and the subtraction
in `int`. -/
def loadBefore (P : Nat) (b : Build K D S) (c : Params ℚ) (first : Int) (disks : Int → Disk K D) : Outcome (Fin P → List (Sub K D)) :=
  if first = -(2 : Int) ^ 31 then .ub
  else if first - 1 < c.minSnapshotIndex then launch P b first disks
  else do
    let _ ← setSnapshotIndex c (first - 1)
    launch P b first disks

/-- The inputs of snapshot `i`, read when the index is `i`. Part of `mainLoop`, HBT.cpp:55-91. -/
def inputAt {P : Nat} (input : Int → SnapInput K D E S R P × List (WriteOp P)) (i : Int) : SnapInput K D E S R P × List (WriteOp P) :=
  ({ (input i).1 with snap := i }, (input i).2)

/-- The loop `for(int isnap=snapshot_start;isnap<=snapshot_end;isnap++)`, HBT.cpp:55-91, for `n` iterations from `i` on, with
`SetSnapshotIndex` (HBT.cpp:60, also in the readers) and `isnap++` in `int`. -/
def mainLoop [LE K] [DecidableLE K] [LT K] [DecidableLT K] [MassSum K] [Mul K] [LT R] [DecidableLT R] [LT E] [DecidableLT E]
    [Zero E] {P : Nat} (b : Build K D S) (c : Params ℚ) (input : Int → SnapInput K D E S R P × List (WriteOp P)) :
    Nat → Int → (Fin P → List (Sub K D)) → (Int → Disk K D) → Outcome ((Fin P → List (Sub K D)) × (Int → Disk K D))
  | 0, _, st, disks => .ok (st, disks)
  | n + 1, i, st, disks => do
    let _ ← setSnapshotIndex c i
    let y ← takeSnapshot b (inputAt input i).1 (inputAt input i).2 st disks
    if i = (2 : Int) ^ 31 - 1 then .ub
    else mainLoop b c input n (i + 1) y.1 y.2

/-- `main`, HBT.cpp:16-95, on `P` processes, of which the first parses the arguments: `c0` is `HBTConfig` before. Gives the catalogue
directories and `Parameters.log`. After `BroadCast` the processes have one configuration (C52), so that of the first stands for
all; `snapshot_start` and `snapshot_end` are sent with it (src/config_parser.h:116-121). -/
def program [LE K] [DecidableLE K] [LT K] [DecidableLT K] [MassSum K] [Mul K] [LT R] [DecidableLT R] [LT E] [DecidableLT E]
    [Zero E] {P : Nat} [NeZero P] (wide : Nat) (readReal : List Char → ℚ → ℚ) (printReal : ℚ → List Char) (version : List Char) (env : Surroundings)
    (c0 : Fin P → Params ℚ) (real : ℚ → K) (fixed : Build K D S) (input : Int → SnapInput K D E S R P × List (WriteOp P)) (args : List (List Char))
    (disks : Int → Disk K D) : Outcome ((Int → Disk K D) × List (List Char)) := do
  let x ← parseHBTParams wide readReal env (c0 0) args
  let cs ← broadCast 0 (fun r => if r = 0 then x.1 else c0 r)
  let st ← loadBefore P (buildOf real fixed (cs 0)) (cs 0) x.2.1 disks
  let y ← mainLoop (buildOf real fixed (cs 0)) (cs 0) input (x.2.2 + 1 - x.2.1).toNat x.2.1 st disks
  .ok (y.2, dumpParameters printReal version x.1)

end HBT.Model
