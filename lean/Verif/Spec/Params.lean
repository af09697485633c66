/-!
# The configuration record
Plain data shared by specification and model.
-/
namespace HBT

/-- The members of `Parameter_t`, src/config_parser.h:26-75, and the two global constants
`PhysicalConst::G`, `PhysicalConst::H0` (lines 15-19). `R` stands for `HBTReal`; strings are lists of characters. -/
structure Params (R : Type) where
  snapshotPath : List Char
  haloPath : List Char
  subhaloPath : List Char
  snapshotFileBase : List Char
  maxSnapshotIndex : Int
  boxSize : R
  softeningHalo : R
  isSet : List Bool
  snapshotFormat : List Char
  groupFileFormat : List Char
  maxConcurrentIO : Int
  minSnapshotIndex : Int
  minNumPartOfSub : Int
  groupParticleIdMask : Int
  massInMsunh : R
  lengthInMpch : R
  velInKmS : R
  periodicBoundaryOn : Bool
  snapshotHasIdBlock : Bool
  particleIdRankStyle : Bool
  particleIdNeedHash : Bool
  snapshotIdUnsigned : Bool
  saveSubParticleProperties : Bool
  mergeTrappedSubhalos : Bool
  snapshotIdList : List Int
  snapshotNameList : List (List Char)
  majorProgenitorMassRatio : R
  boundMassPrecision : R
  sourceSubRelaxFactor : R
  subCoreSizeFactor : R
  subCoreSizeMin : Int
  treeAllocFactor : R
  treeNodeOpenAngle : R
  treeMinNumOfCells : Int
  maxSampleSizeOfPotentialEstimate : Int
  refineMostboundParticle : Bool
  treeNodeOpenAngleSquare : R
  treeNodeResolution : R
  treeNodeResolutionHalf : R
  boxHalf : R
  groupLoadedFullParticle : Bool
  constG : R
  constH0 : R
  deriving DecidableEq

end HBT
