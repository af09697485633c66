import Verif.Spec.Params
/-!
# Specification: configuration files
-/
namespace HBT.Spec
variable {R : Type}

/-- White space. -/
def isBlank (c : Char) : Bool := c == ' ' || c == '\t' || c == '\n' || c == '\x0b' || c == '\x0c' || c == '\r'

/-- The part of a line before a comment, which begins with `#` or `[`. -/
def visible (line : List Char) : List Char := line.takeWhile (fun c => !(c == '#' || c == '['))

/-- The words of a text, separated by white space. -/
def words (cs : List Char) : List (List Char) := (cs.splitOnP isBlank).filter (fun w => !w.isEmpty)

/-- The first word of a line, if it has one. -/
def firstWord (line : List Char) : Option (List Char) := (words (visible line)).head?

/-- A word that can be written in a configuration file. -/
def CleanWord (w : List Char) : Prop := w ≠ [] ∧ ∀ c ∈ w, isBlank c = false ∧ c ≠ '#' ∧ c ≠ '['

/-- The usual decimal notation. -/
def decimal : Int → List Char
  | .ofNat n => Nat.toDigits 10 n
  | .negSucc n => '-' :: Nat.toDigits 10 (n + 1)

/-- `0` or `1`. -/
def bit (b : Bool) : List Char := if b then ['1'] else ['0']

/-- Smallest and largest number of `n` bits. -/
def InRange (n : Nat) (v : Int) : Prop := -(2 : Int) ^ (n - 1) ≤ v ∧ v < (2 : Int) ^ (n - 1)

/-- The parameters whose value is a word. -/
def wordParams : List (List Char × (Params R → List Char)) :=
  [("SnapshotPath".toList, (·.snapshotPath)), ("HaloPath".toList, (·.haloPath)), ("SubhaloPath".toList, (·.subhaloPath)),
   ("SnapshotFileBase".toList, (·.snapshotFileBase)), ("SnapshotFormat".toList, (·.snapshotFormat)),
   ("GroupFileFormat".toList, (·.groupFileFormat))]

/-- The parameters whose value is an integer, with the number of bits; `wide` is the number of bits of
`HBTInt` (32 or 64). -/
def intParams (wide : Nat) : List (List Char × Nat × (Params R → Int)) :=
  [("MaxSnapshotIndex".toList, 32, (·.maxSnapshotIndex)), ("MaxConcurrentIO".toList, 32, (·.maxConcurrentIO)),
   ("MinSnapshotIndex".toList, 32, (·.minSnapshotIndex)), ("MinNumPartOfSub".toList, 32, (·.minNumPartOfSub)),
   ("SubCoreSizeMin".toList, wide, (·.subCoreSizeMin)), ("TreeMinNumOfCells".toList, wide, (·.treeMinNumOfCells)),
   ("MaxSampleSizeOfPotentialEstimate".toList, wide, (·.maxSampleSizeOfPotentialEstimate))]

/-- The switches (`ParticleIdNeedHash` apart, which `ParticleIdRankStyle` overrules). -/
def switchParams : List (List Char × (Params R → Bool)) :=
  [("PeriodicBoundaryOn".toList, (·.periodicBoundaryOn)), ("SnapshotHasIdBlock".toList, (·.snapshotHasIdBlock)),
   ("ParticleIdRankStyle".toList, (·.particleIdRankStyle)), ("SnapshotIdUnsigned".toList, (·.snapshotIdUnsigned)),
   ("SaveSubParticleProperties".toList, (·.saveSubParticleProperties)), ("MergeTrappedSubhalos".toList, (·.mergeTrappedSubhalos)),
   ("RefineMostboundParticle".toList, (·.refineMostboundParticle))]

/-- The parameters whose value is a real number. -/
def realParams : List (List Char × (Params R → R)) :=
  [("BoxSize".toList, (·.boxSize)), ("SofteningHalo".toList, (·.softeningHalo)), ("MassInMsunh".toList, (·.massInMsunh)),
   ("LengthInMpch".toList, (·.lengthInMpch)), ("VelInKmS".toList, (·.velInKmS)),
   ("MajorProgenitorMassRatio".toList, (·.majorProgenitorMassRatio)), ("BoundMassPrecision".toList, (·.boundMassPrecision)),
   ("SourceSubRelaxFactor".toList, (·.sourceSubRelaxFactor)), ("SubCoreSizeFactor".toList, (·.subCoreSizeFactor)),
   ("TreeAllocFactor".toList, (·.treeAllocFactor)), ("TreeNodeOpenAngle".toList, (·.treeNodeOpenAngle))]

/-- The parameters that must be given. -/
def compulsory : List (List Char) :=
  ["SnapshotPath".toList, "HaloPath".toList, "SubhaloPath".toList, "SnapshotFileBase".toList, "MaxSnapshotIndex".toList,
   "BoxSize".toList, "SofteningHalo".toList]

/-- All names that may begin a line. -/
def knownNames : List (List Char) :=
  wordParams (R := Unit) |>.map Prod.fst |>.append ((intParams (R := Unit) 32).map Prod.fst) |>.append
    ((switchParams (R := Unit)).map Prod.fst) |>.append ((realParams (R := Unit)).map Prod.fst) |>.append
    ["ParticleIdNeedHash".toList, "GroupParticleIdMask".toList, "SnapshotIdList".toList]

end HBT.Spec
