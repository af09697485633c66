import Verif.Model.Outcome
import Verif.Spec.Params
import Mathlib.Algebra.Field.Defs
/-!
# Model of reading and dumping the configuration, src/config_parser.cpp and src/config_parser.h

Lines and strings are lists of characters. Extraction from streams (`ss>>x`) follows the C++ standard and, for
the characters accepted in numbers, libstdc++. Reals are read and printed by parameters `readReal` (the text
after the name and the old value) and `printReal`. Messages are left out.
-/
namespace HBT.Model
open HBT
variable {R : Type}

/-- `std::isspace` in the default locale. Used by `ss>>` in src/config_parser.cpp:16-63. -/
def isSpace (c : Char) : Bool := c == ' ' || c == '\t' || c == '\n' || c == '\x0b' || c == '\x0c' || c == '\r'

/-- `trim_leading_garbage(s, " \t")`, src/config_parser.h:127-134. -/
def trimLeading (s : List Char) : List Char := s.dropWhile (fun c => c == ' ' || c == '\t')

/-- `trim_trailing_garbage(s, "#[")`, src/config_parser.h:135-140: erases from the first `#` or `[` on. -/
def trimTrailing (garbage : List Char) (s : List Char) : List Char := s.takeWhile (fun c => !(garbage.contains c))

/-- `ss>>name` on a string, what is read and what is left. Part of `setParameterValue`, src/config_parser.cpp:12-72. -/
def extractWord (cs : List Char) : List Char × List Char :=
  let ds := cs.dropWhile isSpace
  (ds.takeWhile (fun c => !isSpace c), ds.dropWhile (fun c => !isSpace c))

/-- `ss>>var` for a string `var` with old value `old`: unchanged if nothing is left.
Part of `entries`, src/config_parser.cpp:18-59. -/
def readWord (cs old : List Char) : List Char :=
  let w := (extractWord cs).1
  if w.isEmpty then old else w

/-- Result of extracting a number: nothing left (value unchanged), failure (value still assigned), success.
`ss>>var`, src/config_parser.cpp:18-63. -/
inductive Extracted
  | eof
  | fail (v : Int)
  | good (v : Int) (rest : List Char)

/-- Value of a hexadecimal digit. `ss>>hex`, src/config_parser.cpp:36. -/
def hexVal (c : Char) : Nat :=
  if c.isDigit then c.toNat - 48
  else if 'a'.toNat ≤ c.toNat ∧ c.toNat ≤ 'f'.toNat then c.toNat - 'a'.toNat + 10
  else if 'A'.toNat ≤ c.toNat ∧ c.toNat ≤ 'F'.toNat then c.toNat - 'A'.toNat + 10
  else 16

/-- Value of a digit string. `ss>>var`, src/config_parser.cpp:18-63. -/
def digitsVal (base : Nat) (ds : List Char) : Nat := ds.foldl (fun a c => base * a + hexVal c) 0

/-- Optional sign. `ss>>var`, src/config_parser.cpp:18-63. -/
def splitSign : List Char → Bool × List Char
  | '-' :: cs => (true, cs)
  | '+' :: cs => (false, cs)
  | cs => (false, cs)

/-- `0x`, accepted in base 16. `ss>>hex`, src/config_parser.cpp:36. -/
def dropPrefix (base : Nat) : List Char → List Char
  | '0' :: c :: cs => if base = 16 ∧ (c = 'x' ∨ c = 'X') then cs else '0' :: c :: cs
  | cs => cs

/-- `ss>>i` for an integer of `bits` bits. Too large values become the largest or smallest value, with failure;
no digits give 0, with failure. Used by `ss>>`, src/config_parser.cpp:18-63. -/
def extractInt (base bits : Nat) (cs : List Char) : Extracted :=
  match cs.dropWhile isSpace with
  | [] => .eof
  | ds =>
    let (neg, ds) := splitSign ds
    let ds := dropPrefix base ds
    let num := ds.takeWhile (fun c => decide (hexVal c < base))
    if num.isEmpty then .fail 0
    else
      let v : Int := if neg then -(digitsVal base num : Int) else (digitsVal base num : Int)
      if v < -(2 : Int) ^ (bits - 1) then .fail (-(2 : Int) ^ (bits - 1))
      else if (2 : Int) ^ (bits - 1) ≤ v then .fail ((2 : Int) ^ (bits - 1) - 1)
      else .good v (ds.dropWhile (fun c => decide (hexVal c < base)))

/-- `ss>>var` for an integer `var`. Part of `entries`, src/config_parser.cpp:18-59. -/
def readInt (base bits : Nat) (cs : List Char) (old : Int) : Int :=
  match extractInt base bits cs with
  | .eof => old
  | .fail v => v
  | .good v _ => v

/-- `ss>>var` for a `bool`: read as `long`, 0 is false, other values true (with failure unless 1).
Part of `entries`, src/config_parser.cpp:18-59. -/
def readBool (cs : List Char) (old : Bool) : Bool :=
  match extractInt 10 64 cs with
  | .eof => old
  | .fail v => decide (v ≠ 0)
  | .good v _ => decide (v ≠ 0)

/-- `for(int i; ss>>i;) SnapshotIdList.push_back(i)`, src/config_parser.cpp:62-63. -/
def readInts : Nat → List Char → List Int
  | 0, _ => []
  | fuel + 1, cs =>
    match extractInt 10 32 cs with
    | .good v rest => v :: readInts fuel rest
    | _ => []

/-- An entry of the if-else chain of `SetParameterValue`: name and effect of `ss>>var` (given the text after the
name) on the configuration. Part of `entries`, src/config_parser.cpp:18-59. -/
abbrev Entry (R : Type) := List Char × (List Char → Params R → Params R)

/-- `IsSet[i]=true`. Part of `entries`, src/config_parser.cpp:18-59. -/
def markSet (i : Nat) (c : Params R) : Params R := { c with isSet := c.isSet.set i true }

/-- The if-else chain of `SetParameterValue`, src/config_parser.cpp:18-59. `wide` is the number of bits of
`HBTInt`; `long` has 64. -/
def entries (wide : Nat) (readReal : List Char → R → R) : List (Entry R) :=
  [("SnapshotPath".toList, fun t c => markSet 0 { c with snapshotPath := readWord t c.snapshotPath }),
   ("HaloPath".toList, fun t c => markSet 1 { c with haloPath := readWord t c.haloPath }),
   ("SubhaloPath".toList, fun t c => markSet 2 { c with subhaloPath := readWord t c.subhaloPath }),
   ("SnapshotFileBase".toList, fun t c => markSet 3 { c with snapshotFileBase := readWord t c.snapshotFileBase }),
   ("MaxSnapshotIndex".toList, fun t c => markSet 4 { c with maxSnapshotIndex := readInt 10 32 t c.maxSnapshotIndex }),
   ("BoxSize".toList, fun t c => markSet 5 { c with boxSize := readReal t c.boxSize }),
   ("SofteningHalo".toList, fun t c => markSet 6 { c with softeningHalo := readReal t c.softeningHalo }),
   ("SnapshotFormat".toList, fun t c => { c with snapshotFormat := readWord t c.snapshotFormat }),
   ("GroupFileFormat".toList, fun t c => { c with groupFileFormat := readWord t c.groupFileFormat }),
   ("MaxConcurrentIO".toList, fun t c => { c with maxConcurrentIO := readInt 10 32 t c.maxConcurrentIO }),
   ("MinSnapshotIndex".toList, fun t c => { c with minSnapshotIndex := readInt 10 32 t c.minSnapshotIndex }),
   ("MinNumPartOfSub".toList, fun t c => { c with minNumPartOfSub := readInt 10 32 t c.minNumPartOfSub }),
   ("GroupParticleIdMask".toList, fun t c => { c with groupParticleIdMask := readInt 16 64 t c.groupParticleIdMask }),
   ("MassInMsunh".toList, fun t c => { c with massInMsunh := readReal t c.massInMsunh }),
   ("LengthInMpch".toList, fun t c => { c with lengthInMpch := readReal t c.lengthInMpch }),
   ("VelInKmS".toList, fun t c => { c with velInKmS := readReal t c.velInKmS }),
   ("PeriodicBoundaryOn".toList, fun t c => { c with periodicBoundaryOn := readBool t c.periodicBoundaryOn }),
   ("SnapshotHasIdBlock".toList, fun t c => { c with snapshotHasIdBlock := readBool t c.snapshotHasIdBlock }),
   ("ParticleIdRankStyle".toList, fun t c => { c with particleIdRankStyle := readBool t c.particleIdRankStyle }),
   ("ParticleIdNeedHash".toList, fun t c => { c with particleIdNeedHash := readBool t c.particleIdNeedHash }),
   ("SnapshotIdUnsigned".toList, fun t c => { c with snapshotIdUnsigned := readBool t c.snapshotIdUnsigned }),
   ("SaveSubParticleProperties".toList, fun t c =>
      { c with saveSubParticleProperties := readBool t c.saveSubParticleProperties }),
   ("MergeTrappedSubhalos".toList, fun t c => { c with mergeTrappedSubhalos := readBool t c.mergeTrappedSubhalos }),
   ("MajorProgenitorMassRatio".toList, fun t c =>
      { c with majorProgenitorMassRatio := readReal t c.majorProgenitorMassRatio }),
   ("BoundMassPrecision".toList, fun t c => { c with boundMassPrecision := readReal t c.boundMassPrecision }),
   ("SourceSubRelaxFactor".toList, fun t c => { c with sourceSubRelaxFactor := readReal t c.sourceSubRelaxFactor }),
   ("SubCoreSizeFactor".toList, fun t c => { c with subCoreSizeFactor := readReal t c.subCoreSizeFactor }),
   ("SubCoreSizeMin".toList, fun t c => { c with subCoreSizeMin := readInt 10 wide t c.subCoreSizeMin }),
   ("TreeAllocFactor".toList, fun t c => { c with treeAllocFactor := readReal t c.treeAllocFactor }),
   ("TreeNodeOpenAngle".toList, fun t c => { c with treeNodeOpenAngle := readReal t c.treeNodeOpenAngle }),
   ("TreeMinNumOfCells".toList, fun t c => { c with treeMinNumOfCells := readInt 10 wide t c.treeMinNumOfCells }),
   ("MaxSampleSizeOfPotentialEstimate".toList, fun t c =>
      { c with maxSampleSizeOfPotentialEstimate := readInt 10 wide t c.maxSampleSizeOfPotentialEstimate }),
   ("RefineMostboundParticle".toList, fun t c =>
      { c with refineMostboundParticle := readBool t c.refineMostboundParticle }),
   ("SnapshotIdList".toList, fun t c => { c with snapshotIdList := c.snapshotIdList ++ readInts (t.length + 1) t })]

/-- `SetParameterValue`, src/config_parser.cpp:12-72: an unknown name throws. -/
def setParameterValue (wide : Nat) (readReal : List Char → R → R) (c : Params R) (line : List Char) : Outcome (Params R) :=
  let w := extractWord line
  match (entries wide readReal).find? (fun e => decide (w.1 = e.1)) with
  | some e => .ok (e.2 w.2 c)
  | none => .abort

/-- The body of the loop of `ParseConfigFile`, src/config_parser.cpp:90-92. -/
def parseLine (wide : Nat) (readReal : List Char → R → R) (c : Params R) (line : List Char) : Outcome (Params R) :=
  let line := trimLeading (trimTrailing ['#', '['] line)
  if line.isEmpty then .ok c else setParameterValue wide readReal c line

/-- `CheckUnsetParameters`, src/config_parser.cpp:137-156. -/
def checkUnset (c : Params R) : Outcome Unit :=
  if c.isSet.all id then
    if !c.snapshotIdList.isEmpty then
      if c.maxSnapshotIndex ≠ (c.snapshotIdList.length : Int) - 1 then .abort else .ok ()
    else .ok ()
  else .abort

/-- The derived parameters, src/config_parser.cpp:95-107 (exact arithmetic). -/
def deriveParams [Field R] (c : Params R) : Params R :=
  { c with
    constG := (430071 / 10000 : R) * (c.massInMsunh / 10 ^ 10) / c.velInKmS / c.velInKmS / c.lengthInMpch
    constH0 := 100 * (1 / c.velInKmS) / (1 / c.lengthInMpch)
    particleIdNeedHash := if c.particleIdRankStyle then false else c.particleIdNeedHash
    boxHalf := c.boxSize / 2
    treeNodeResolution := c.softeningHalo * (1 / 10)
    treeNodeResolutionHalf := c.softeningHalo * (1 / 10) / 2
    treeNodeOpenAngleSquare := c.treeNodeOpenAngle * c.treeNodeOpenAngle
    groupLoadedFullParticle := if c.groupFileFormat = "apostle_particle_index".toList then true else c.groupLoadedFullParticle }

/-- `ReadSnapshotNameList`, src/config_parser.cpp:110-135: the first word of each line, without comment. `list` is the
content of `snapshotlist.txt`, if there is such a file. -/
def readNames (list : Option (List (List Char))) (c : Params R) : Outcome (Params R) :=
  match list with
  | none => if c.snapshotNameList.length = 0 ∨ (c.snapshotNameList.length : Int) = c.maxSnapshotIndex + 1 then .ok c else .abort
  | some lines =>
    let names := (lines.map (fun l => (extractWord (trimTrailing ['#'] l)).1)).filter (fun w => !w.isEmpty)
    let c := { c with snapshotNameList := c.snapshotNameList ++ names }
    if c.snapshotNameList.length = 0 ∨ (c.snapshotNameList.length : Int) = c.maxSnapshotIndex + 1 then .ok c else .abort

/-- `ParseConfigFile`, src/config_parser.cpp:74-109, on the lines of the file, starting from `c`. -/
def parseConfig [Field R] (wide : Nat) (readReal : List Char → R → R) (names : Option (List (List Char))) (c : Params R)
    (lines : List (List Char)) : Outcome (Params R) := do
  let c ← lines.foldlM (parseLine wide readReal) c
  checkUnset c
  readNames names (deriveParams c)

/-- The constructor `Parameter_t()`, src/config_parser.h:77-110; `u` holds the members it leaves uninitialised
(`merge` is false if built with `NO_STRIPPING`). -/
def defaults [Field R] (merge : Bool) (u : Params R) : Params R :=
  { u with
    isSet := List.replicate 7 false, snapshotIdList := [], snapshotNameList := [], snapshotPath := [], haloPath := [],
    subhaloPath := [], snapshotFileBase := [], snapshotFormat := "gadget".toList, groupFileFormat := "gadget3_int".toList,
    maxConcurrentIO := 10, minSnapshotIndex := 0, minNumPartOfSub := 20, groupParticleIdMask := 0, massInMsunh := 10 ^ 10,
    lengthInMpch := 1, velInKmS := 1, periodicBoundaryOn := true, snapshotHasIdBlock := true, particleIdRankStyle := false,
    particleIdNeedHash := true, snapshotIdUnsigned := false, saveSubParticleProperties := false, mergeTrappedSubhalos := merge,
    majorProgenitorMassRatio := 8 / 10, boundMassPrecision := 995 / 1000, sourceSubRelaxFactor := 3, subCoreSizeFactor := 1 / 4,
    subCoreSizeMin := 20, treeAllocFactor := 8 / 10, treeNodeOpenAngle := 45 / 100, treeMinNumOfCells := 10,
    maxSampleSizeOfPotentialEstimate := 1000, refineMostboundParticle := true, groupLoadedFullParticle := false }

/-- `out<<i` for an integer. Part of `dumpParameters`, src/config_parser.cpp:252-326. -/
def printInt (n : Int) : List Char := if n < 0 then '-' :: Nat.toDigits 10 n.natAbs else Nat.toDigits 10 n.natAbs

/-- `out<<hex<<i` for a `long`: negative values as unsigned 64-bit numbers.
Part of `dumpParameters`, src/config_parser.cpp:252-326. -/
def printHex (n : Int) : List Char := Nat.toDigits 16 (if n < 0 then n + 2 ^ 64 else n).toNat

/-- `out<<b` for a `bool`. Part of `dumpParameters`, src/config_parser.cpp:252-326. -/
def printBool (b : Bool) : List Char := if b then ['1'] else ['0']

/-- `DumpPar`, src/config_parser.cpp:266. -/
def dumpPar (name : List Char) (text : List Char) : List Char := name ++ ' ' :: ' ' :: text

/-- `DumpParameters`, src/config_parser.cpp:252-326: the lines written. `version` is `HBT_VERSION`. -/
def dumpParameters (printReal : R → List Char) (version : List Char) (c : Params R) : List (List Char) :=
  [("#VERSION ".toList ++ version),
   dumpPar "SnapshotPath".toList c.snapshotPath,
   dumpPar "HaloPath".toList c.haloPath,
   dumpPar "SubhaloPath".toList c.subhaloPath,
   dumpPar "SnapshotFileBase".toList c.snapshotFileBase,
   dumpPar "MaxSnapshotIndex".toList (printInt c.maxSnapshotIndex),
   dumpPar "BoxSize".toList (printReal c.boxSize),
   dumpPar "SofteningHalo".toList (printReal c.softeningHalo),
   dumpPar "SnapshotFormat".toList c.snapshotFormat,
   dumpPar "GroupFileFormat".toList c.groupFileFormat,
   dumpPar "MaxConcurrentIO".toList (printInt c.maxConcurrentIO),
   dumpPar "MinSnapshotIndex".toList (printInt c.minSnapshotIndex),
   dumpPar "MinNumPartOfSub".toList (printInt c.minNumPartOfSub)] ++
  (if c.groupParticleIdMask ≠ 0 then ["GroupParticleIdMask".toList ++ ' ' :: printHex c.groupParticleIdMask] else []) ++
  [dumpPar "MassInMsunh".toList (printReal c.massInMsunh),
   dumpPar "LengthInMpch".toList (printReal c.lengthInMpch),
   dumpPar "VelInKmS".toList (printReal c.velInKmS),
   dumpPar "PeriodicBoundaryOn".toList (printBool c.periodicBoundaryOn),
   dumpPar "SnapshotHasIdBlock".toList (printBool c.snapshotHasIdBlock),
   dumpPar "ParticleIdRankStyle".toList (printBool c.particleIdRankStyle),
   dumpPar "ParticleIdNeedHash".toList (printBool c.particleIdNeedHash),
   dumpPar "SnapshotIdUnsigned".toList (printBool c.snapshotIdUnsigned),
   dumpPar "SaveSubParticleProperties".toList (printBool c.saveSubParticleProperties),
   dumpPar "MergeTrappedSubhalos".toList (printBool c.mergeTrappedSubhalos)] ++
  (if c.snapshotIdList.length ≠ 0 then ["SnapshotIdList".toList ++ c.snapshotIdList.flatMap (fun i => ' ' :: printInt i)] else []) ++
  (if c.snapshotNameList.length ≠ 0 then ["#SnapshotNameList".toList ++ c.snapshotNameList.flatMap (fun i => ' ' :: i)] else []) ++
  [dumpPar "MajorProgenitorMassRatio".toList (printReal c.majorProgenitorMassRatio),
   dumpPar "BoundMassPrecision".toList (printReal c.boundMassPrecision),
   dumpPar "SourceSubRelaxFactor".toList (printReal c.sourceSubRelaxFactor),
   dumpPar "SubCoreSizeFactor".toList (printReal c.subCoreSizeFactor),
   dumpPar "SubCoreSizeMin".toList (printInt c.subCoreSizeMin),
   dumpPar "TreeAllocFactor".toList (printReal c.treeAllocFactor),
   dumpPar "TreeNodeOpenAngle".toList (printReal c.treeNodeOpenAngle),
   dumpPar "TreeMinNumOfCells".toList (printInt c.treeMinNumOfCells),
   dumpPar "MaxSampleSizeOfPotentialEstimate".toList (printInt c.maxSampleSizeOfPotentialEstimate),
   dumpPar "RefineMostboundParticle".toList (printBool c.refineMostboundParticle),
   '#' :: dumpPar "GroupLoadedFullParticle".toList (printBool c.groupLoadedFullParticle)]

end HBT.Model
