import Verif.Props.ConfigDump
/-!
# C45: examples and findings
-/
namespace HBT.Props
open HBT HBT.Model HBT.Spec

/-- Reals that are whole numbers, for the examples. -/
def readWhole (t : List Char) (old : ℚ) : ℚ := (readInt 10 64 t (Rat.floor old) : ℚ)

/-- See `readWhole`. -/
def printWhole (x : ℚ) : List Char := printInt (Rat.floor x)

/-- A configuration file. -/
def exampleFile : List (List Char) :=
  ["# a comment".toList, "[Compulsory Params]".toList, "SnapshotPath  /data/snap".toList, "HaloPath\t/data/group".toList,
   "SubhaloPath out # where to write".toList, "  SnapshotFileBase snap".toList, "".toList, "MaxSnapshotIndex 5".toList,
   "BoxSize 100".toList, "SofteningHalo 1".toList, "MinNumPartOfSub 30".toList, "MinNumPartOfSub 25".toList,
   "SnapshotIdList 1 2 3 5 8 13".toList, "PeriodicBoundaryOn 0".toList, "GroupParticleIdMask 0x3FF".toList,
   "ParticleIdRankStyle 1".toList, "ParticleIdNeedHash 1".toList]

/-- Everything zero. -/
def blankParams : Params ℚ :=
  ⟨[], [], [], [], 0, 0, 0, [], [], [], 0, 0, 0, 0, 0, 0, 0, true, true, true, true, true, true,
    true, [], [], 0, 0, 0, 0, 0, 0, 0, 0, 0, true, 0, 0, 0, 0, true, 0, 0⟩

/-- The file as parsed. -/
def exampleParsed : Outcome (Params ℚ) := parseConfig 32 readWhole none (defaults true blankParams) exampleFile

example : (do let c ← exampleParsed; pure (c.snapshotPath, c.haloPath, c.subhaloPath, c.maxSnapshotIndex, c.boxSize)) =
      .ok ("/data/snap".toList, "/data/group".toList, "out".toList, 5, 100) ∧
    (do let c ← exampleParsed
        pure (c.minNumPartOfSub, c.snapshotIdList, c.periodicBoundaryOn, c.groupParticleIdMask, c.particleIdNeedHash)) =
      .ok (25, [1, 2, 3, 5, 8, 13], false, 1023, false) ∧
    (do let c ← exampleParsed; pure c.boxHalf) = .ok 50 := by
  decide +kernel

/-- Non-vacuity of `C45_missing_rejected` and `C45_unknown_rejected`. -/
example : parseConfig 32 readWhole none (defaults true blankParams) ["HaloPath a".toList] = .abort :=
  C45_missing_rejected (n := "SnapshotPath".toList) (by decide +kernel) rfl (by decide +kernel)

example : parseConfig 32 readWhole none (defaults true blankParams) ["HaloPath a".toList, " Snapshotpath b".toList] = .abort :=
  C45_unknown_rejected (l := " Snapshotpath b".toList) (w := "Snapshotpath".toList) (by simp) (by decide +kernel) (by decide +kernel)

/-- Non-vacuity of `C45_integer`. -/
example (c : Params ℚ) (h : exampleParsed = .ok c) : c.minNumPartOfSub = 25 :=
  C45_integer (p := ("MinNumPartOfSub".toList, 32, (·.minNumPartOfSub))) (a := exampleFile.take 11) (b := exampleFile.drop 12)
    (l := "MinNumPartOfSub 25".toList) (more := []) (List.mem_of_getElem? (i := 3) rfl) (by unfold InRange; decide)
    (by decide +kernel) (by decide +kernel) h

/-- A configuration that can be dumped. -/
def exampleConfig : Params ℚ :=
  { defaults true blankParams with
    snapshotPath := "/data/snap".toList, haloPath := "/data/group".toList, subhaloPath := "out".toList, snapshotFileBase := "s".toList,
    maxSnapshotIndex := 2, boxSize := 100, softeningHalo := 1, snapshotIdList := [-1, 10, 12], groupParticleIdMask := 1023,
    majorProgenitorMassRatio := 1, boundMassPrecision := 1, subCoreSizeFactor := 1, treeAllocFactor := 1, treeNodeOpenAngle := 1 }

/-- Non-vacuity of `C45_dump_round_trip`. -/
theorem exampleConfig_dumpable : Dumpable 32 readWhole printWhole exampleConfig := by
  refine ⟨?_, ?_, ?_, ?_, ?_, ?_, ?_⟩
  · unfold CleanWord
    decide +kernel
  · unfold InRange
    decide +kernel
  · intro p hp
    refine ⟨printInt_clean _, ?_⟩
    intro t old ht
    have h : InRange 64 (Rat.floor (p.2 exampleConfig)) ∧ ((Rat.floor (p.2 exampleConfig) : ℤ) : ℚ) = p.2 exampleConfig := by
      clear ht t old
      revert p
      unfold InRange
      decide +kernel
    rw [readWhole, readInt_word (ws := []) h.1 (by rw [ht, printWhole, printInt_eq]), h.2]
  · unfold InRange
    decide +kernel
  · unfold InRange
    decide +kernel
  · exact .inr rfl
  · decide

/-! ## Findings -/

/-- The compulsory lines. -/
def enough : List (List Char) :=
  ["SnapshotPath a".toList, "HaloPath b".toList, "SubhaloPath c".toList, "SnapshotFileBase d".toList, "MaxSnapshotIndex 3".toList,
   "BoxSize 1".toList, "SofteningHalo 1".toList]

/-- Finding: later values override earlier ones except for the list of snapshot ids, which is extended by each line. -/
theorem C45_id_lists_accumulate : (do
    let c ← parseConfig 32 readWhole none (defaults true blankParams)
      (enough ++ ["SnapshotIdList 1 2".toList, "SnapshotIdList 3 4".toList])
    pure c.snapshotIdList) = .ok ([1, 2, 3, 4]) := by
  decide +kernel

/-- Finding: a compulsory name without a value counts as given; the parameter stays as it was. -/
theorem C45_empty_value : (do
    let c ← parseConfig 32 readWhole none (defaults true blankParams)
      (["SnapshotPath".toList] ++ enough.drop 1)
    pure c.snapshotPath) = .ok ([]) := by
  decide +kernel

/-- Finding: a line that holds only a carriage return (an empty line of a file with DOS line ends) is rejected. -/
theorem C45_carriage_return : parseConfig 32 readWhole none (defaults true blankParams) (enough ++ ["\r".toList]) = .abort := by
  decide +kernel

/-- Finding: a negative mask is dumped as an unsigned number and read back as the largest positive one. -/
theorem C45_negative_mask : (do
    let c ← parseConfig 32 readWhole none (defaults true blankParams)
      (dumpParameters printWhole [] { exampleConfig with groupParticleIdMask := -2 })
    pure c.groupParticleIdMask) = .ok (2 ^ 63 - 1) := by
  decide +kernel

/-- Finding: of a path with a blank only the first part is read, so such a path does not survive a dump. -/
theorem C45_blank_in_path : (do
    let c ← parseConfig 32 readWhole none (defaults true blankParams)
      (dumpParameters printWhole [] { exampleConfig with snapshotPath := "/my data".toList })
    pure c.snapshotPath) = .ok ("/my".toList) := by
  decide +kernel

end HBT.Props
