import Verif.Model.Config
/-!
# Model of sharing the configuration, src/config_parser.cpp:182-251 and src/mpi_wrapper.cpp

`MPI_Bcast` by its specification: afterwards all processes have the data of the root. An exception on the root
counts as `abort` of the whole run.
-/
namespace HBT.Model
open HBT
variable {R : Type} {P : Nat}

/-- The configurations of all processes. Part of `syncAtom`, src/mpi_wrapper.h:82-86. -/
abbrev World (R : Type) (P : Nat) := Fin P → Params R

/-- `SyncAtom` and `SyncAtomBool`, src/mpi_wrapper.h:82-86, src/mpi_wrapper.cpp:5-12, for the member with reader `get` and writer
`set`. -/
def syncAtom {α : Type} (root : Fin P) (get : Params R → α) (set : α → Params R → Params R) (st : World R P) : Outcome (World R P) :=
  .ok (fun r => set (get (st root)) (st r))

/-- `SyncContainer`, src/mpi_wrapper.h:65-81, and `SyncVectorBool`, src/mpi_wrapper.cpp:13-21. -/
def syncVec {α : Type} (root : Fin P) (get : Params R → List α) (set : List α → Params R → Params R) (st : World R P) :
    Outcome (World R P) :=
  if (get (st root)).length ≥ 2 ^ 31 - 1 then .abort
  else .ok (fun r => if r = root then st r else set (get (st root)) (st r))

/-- The loop `while(getline(file,s))` over a string; `line` is what has been read of the current line, backwards.
Part of `syncStrings`, src/mpi_wrapper.cpp:23-46. -/
def getLines (line : List Char) : List Char → List (List Char)
  | [] => if line.isEmpty then [] else [line.reverse]
  | c :: cs => if c = '\n' then line.reverse :: getLines [] cs else getLines (c :: line) cs

/-- `SyncVectorString`, src/mpi_wrapper.cpp:23-46. -/
def syncStrings (root : Fin P) (get : Params R → List (List Char)) (set : List (List Char) → Params R → Params R) (st : World R P) :
    Outcome (World R P) :=
  let buffer := (get (st root)).flatMap (fun s => s ++ ['\n'])
  if buffer.length ≥ 2 ^ 31 - 1 then .abort
  else .ok (fun r => if r = root then st r else set (getLines [] buffer) (st r))

/-- `Parameter_t::BroadCast`, src/config_parser.cpp:182-251 (without `ALLOW_BINARY_SYSTEM`). -/
def broadCast (root : Fin P) (st : World R P) : Outcome (World R P) := do
  let st ← syncVec root (·.snapshotPath) (fun x c => { c with snapshotPath := x }) st
  let st ← syncVec root (·.haloPath) (fun x c => { c with haloPath := x }) st
  let st ← syncVec root (·.subhaloPath) (fun x c => { c with subhaloPath := x }) st
  let st ← syncVec root (·.snapshotFileBase) (fun x c => { c with snapshotFileBase := x }) st
  let st ← syncAtom root (·.maxSnapshotIndex) (fun x c => { c with maxSnapshotIndex := x }) st
  let st ← syncAtom root (·.boxSize) (fun x c => { c with boxSize := x }) st
  let st ← syncAtom root (·.softeningHalo) (fun x c => { c with softeningHalo := x }) st
  let st ← syncVec root (·.isSet) (fun x c => { c with isSet := x }) st
  let st ← syncVec root (·.snapshotFormat) (fun x c => { c with snapshotFormat := x }) st
  let st ← syncVec root (·.groupFileFormat) (fun x c => { c with groupFileFormat := x }) st
  let st ← syncAtom root (·.maxConcurrentIO) (fun x c => { c with maxConcurrentIO := x }) st
  let st ← syncAtom root (·.minSnapshotIndex) (fun x c => { c with minSnapshotIndex := x }) st
  let st ← syncAtom root (·.minNumPartOfSub) (fun x c => { c with minNumPartOfSub := x }) st
  let st ← syncAtom root (·.groupParticleIdMask) (fun x c => { c with groupParticleIdMask := x }) st
  let st ← syncAtom root (·.massInMsunh) (fun x c => { c with massInMsunh := x }) st
  let st ← syncAtom root (·.lengthInMpch) (fun x c => { c with lengthInMpch := x }) st
  let st ← syncAtom root (·.velInKmS) (fun x c => { c with velInKmS := x }) st
  let st ← syncAtom root (·.periodicBoundaryOn) (fun x c => { c with periodicBoundaryOn := x }) st
  let st ← syncAtom root (·.snapshotHasIdBlock) (fun x c => { c with snapshotHasIdBlock := x }) st
  let st ← syncAtom root (·.particleIdRankStyle) (fun x c => { c with particleIdRankStyle := x }) st
  let st ← syncAtom root (·.particleIdNeedHash) (fun x c => { c with particleIdNeedHash := x }) st
  let st ← syncAtom root (·.snapshotIdUnsigned) (fun x c => { c with snapshotIdUnsigned := x }) st
  let st ← syncAtom root (·.saveSubParticleProperties) (fun x c => { c with saveSubParticleProperties := x }) st
  let st ← syncAtom root (·.mergeTrappedSubhalos) (fun x c => { c with mergeTrappedSubhalos := x }) st
  let st ← syncVec root (·.snapshotIdList) (fun x c => { c with snapshotIdList := x }) st
  let st ← syncStrings root (·.snapshotNameList) (fun x c => { c with snapshotNameList := x }) st
  let st ← syncAtom root (·.majorProgenitorMassRatio) (fun x c => { c with majorProgenitorMassRatio := x }) st
  let st ← syncAtom root (·.boundMassPrecision) (fun x c => { c with boundMassPrecision := x }) st
  let st ← syncAtom root (·.sourceSubRelaxFactor) (fun x c => { c with sourceSubRelaxFactor := x }) st
  let st ← syncAtom root (·.subCoreSizeFactor) (fun x c => { c with subCoreSizeFactor := x }) st
  let st ← syncAtom root (·.subCoreSizeMin) (fun x c => { c with subCoreSizeMin := x }) st
  let st ← syncAtom root (·.treeAllocFactor) (fun x c => { c with treeAllocFactor := x }) st
  let st ← syncAtom root (·.treeNodeOpenAngle) (fun x c => { c with treeNodeOpenAngle := x }) st
  let st ← syncAtom root (·.treeMinNumOfCells) (fun x c => { c with treeMinNumOfCells := x }) st
  let st ← syncAtom root (·.maxSampleSizeOfPotentialEstimate) (fun x c => { c with maxSampleSizeOfPotentialEstimate := x }) st
  let st ← syncAtom root (·.refineMostboundParticle) (fun x c => { c with refineMostboundParticle := x }) st
  let st ← syncAtom root (·.treeNodeOpenAngleSquare) (fun x c => { c with treeNodeOpenAngleSquare := x }) st
  let st ← syncAtom root (·.treeNodeResolution) (fun x c => { c with treeNodeResolution := x }) st
  let st ← syncAtom root (·.treeNodeResolutionHalf) (fun x c => { c with treeNodeResolutionHalf := x }) st
  let st ← syncAtom root (·.boxHalf) (fun x c => { c with boxHalf := x }) st
  let st ← syncAtom root (·.groupLoadedFullParticle) (fun x c => { c with groupLoadedFullParticle := x }) st
  let st ← syncAtom root (·.constG) (fun x c => { c with constG := x }) st
  syncAtom root (·.constH0) (fun x c => { c with constH0 := x }) st

end HBT.Model
