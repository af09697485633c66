import Mathlib.Algebra.Field.Defs
/-!
# Specification: the values of optional parameters that are not given

As the comments of configs/Example.conf:13-46 say, for the parameters listed there; for the others as in the table of src/config_parser.h:77-110, which is
all the documentation there is.
-/
namespace HBT.Spec

/-- Integers. The first three are documented in configs/Example.conf. -/
def defaultInts : List (List Char × Int) :=
  [("MinSnapshotIndex".toList, 0), ("MinNumPartOfSub".toList, 20), ("MaxSampleSizeOfPotentialEstimate".toList, 1000),
   ("SubCoreSizeMin".toList, 20), ("TreeMinNumOfCells".toList, 10)]

/-- Switches; `merge` is true if not built with `NO_STRIPPING`. The first two are documented in configs/Example.conf. -/
def defaultSwitches (merge : Bool) : List (List Char × Bool) :=
  [("SaveSubParticleProperties".toList, false), ("MergeTrappedSubhalos".toList, merge), ("PeriodicBoundaryOn".toList, true),
   ("SnapshotHasIdBlock".toList, true), ("ParticleIdRankStyle".toList, false), ("SnapshotIdUnsigned".toList, false),
   ("RefineMostboundParticle".toList, true)]

/-- Words, documented in configs/Example.conf. -/
def defaultWords : List (List Char × List Char) :=
  [("SnapshotFormat".toList, "gadget".toList), ("GroupFileFormat".toList, "gadget3_int".toList)]

/-- Real numbers. The units are documented in configs/Example.conf. -/
def defaultReals {R : Type} [Field R] : List (List Char × R) :=
  [("MassInMsunh".toList, 10000000000), ("LengthInMpch".toList, 1), ("VelInKmS".toList, 1), ("MajorProgenitorMassRatio".toList, 8 / 10),
   ("BoundMassPrecision".toList, 995 / 1000), ("SourceSubRelaxFactor".toList, 3), ("SubCoreSizeFactor".toList, 25 / 100),
   ("TreeAllocFactor".toList, 8 / 10), ("TreeNodeOpenAngle".toList, 45 / 100)]

end HBT.Spec
