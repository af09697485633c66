import Verif.Props.Program
import Verif.Props.MainExample
import Verif.Props.ConfigExample
/-!
# C71: an example
-/
namespace HBT.Props
open HBT HBT.Model HBT.Spec HBT.MainLoop
variable {K D E S R : Type}

theorem snapInputOk_buildOf [LE E] {P : Nat} {real : ℚ → K} {fixed : Build K D S} {c : HBT.Params ℚ} {ids : List Int} {w : SnapInput K D E S R P}
    (h : SnapInputOk fixed ids w) (hf : c.groupLoadedFullParticle = fixed.fullGroups) : SnapInputOk (buildOf real fixed c) ids w := by
  have hm : ∀ r, ∀ g ∈ w.halos r, ∀ p ∈ g.particles, if (buildOf real fixed c).fullGroups then p.id ∈ ids else Known (buildOf real fixed c).dmOnly ids p.id := by
    intro r g hg p hp
    show if c.groupLoadedFullParticle then p.id ∈ ids else Known fixed.dmOnly ids p.id
    rw [hf]
    exact h.members r g hg p hp
  exact ⟨h.procs, h.few, h.snap, h.ids_, h.distinct, h.nonneg, h.enough, h.haloIds, h.noNull, hm, h.tableOrder, h.feedOrder, h.nestOrder, h.maskOrder,
    h.hostOrder, h.loneOrder, h.mergeOrder, h.eachOrder, h.env, h.env'⟩

/-- A parameter file for the inputs of `Verif.Props.MainExample`. -/
def pFile : List (List Char) := enough ++
  ["# three snapshots".toList, "MaxSnapshotIndex 2".toList, "MinNumPartOfSub 2".toList, "RefineMostboundParticle 0".toList,
   "MaxSampleSizeOfPotentialEstimate 0".toList]

def pName : List Char := "run.conf".toList

def pEnv : Surroundings := ⟨fun f => if f = pName then some pFile else none, none⟩

def pParsed : Outcome (HBT.Params ℚ) := parseConfig 32 readWhole none (defaults true blankParams) pFile

def pC : HBT.Params ℚ := match pParsed with
  | .ok c => c
  | _ => blankParams

theorem pC_parsed : pParsed = .ok pC := by
  have h : (match pParsed with | .ok _ => true | _ => false) = true := by decide +kernel
  unfold pC
  split at h
  · next c hc => rw [hc]
  · cases h

theorem pC_checks : pC.minNumPartOfSub = 2 ∧ pC.boundMassPrecision = 995 / 1000 ∧ pC.sourceSubRelaxFactor = 3 ∧ pC.minSnapshotIndex = 0 ∧
    pC.maxSnapshotIndex = 2 ∧ pC.groupLoadedFullParticle = false ∧ pC.snapshotNameList = [] ∧ pC.snapshotIdList = [] := by
  decide +kernel

/-- The third snapshot, for two processes. -/
def pW2 : SnapInput ℚ Nat Int Int Int 2 := mWorld 2 (pick [12, 11, 10, 9] [8, 7, 6, 5, 4, 3, 2, 1]) (pick [] [(300, [1, 2, 3, 4, 5, 6, 7, 8, 9, 11, 12])])

def pInput (i : Int) : SnapInput ℚ Nat Int Int Int 2 × List (WriteOp 2) := (if i = 0 then mW0 else if i = 1 then mW1 else pW2, mOps2)

theorem pW2_ok (d n : Bool) : SnapInputOk (mBuild d n) mIds pW2 :=
  mWorld_ok d n 2 _ _ mIds (by decide) (by decide) (by decide) (by decide) (by decide) (by decide) (by decide) (by decide) (by decide) (by decide)

theorem pC_sendable : Sendable pC := by
  constructor <;> decide +kernel

theorem pInput_ok (d n : Bool) {i : Int} (h1 : 0 ≤ i) (h2 : i ≤ 2) : SnapInputOk (mBuild d n) (mSim i) (inputAt pInput i).1 := by
  have : i = 0 ∨ i = 1 ∨ i = 2 := by omega
  rcases this with rfl | rfl | rfl
  · exact mW0_ok d n
  · exact mW1_ok d n
  · exact pW2_ok d n

theorem pFile_there : pEnv.file pName = some pFile := by
  show (if pName = pName then some pFile else none) = some pFile
  exact if_pos rfl

theorem pSetting (d n : Bool) : Setting 32 readWhole pEnv (fun _ : Fin 2 => defaults true blankParams) id (mBuild d n) pInput pName pC mSim where
  parsed := ⟨pFile, pFile_there, pC_parsed⟩
  send := pC_sendable
  last := by rw [pC_checks.2.2.2.2.1]; norm_num
  build := by
    obtain ⟨h1, h2, h3, h4, _⟩ := pC_checks
    exact buildOf_ok (mBuild_ok d n) (by rw [h1]) (stops_exact (by rw [h2]; norm_num)) (keeps_exact (by rw [h3]; norm_num)) (by rw [h4])
  sim_ := fun _ _ _ hx => Or.inl hx
  inputs := by
    intro i h1 h2
    rw [pC_checks.2.2.2.1] at h1
    rw [pC_checks.2.2.2.2.1] at h2
    exact snapInputOk_buildOf (pInput_ok d n h1 h2) pC_checks.2.2.2.2.2.1
  ops := by
    intro i r
    revert r
    show ∀ r : Fin 2, WriteOp.sub r ∈ mOps2 ∧ WriteOp.src r ∈ mOps2
    decide

/-- What the program leaves, as the next start at snapshot `s` would read it. -/
def pShow (s : Int) (x : Outcome ((Int → Disk ℚ Nat) × List (List Char))) : Option (List (List MRow)) :=
  match x with
  | .ok y => match launch 2 (buildOf id (mBuild true false) pC) s y.1 with
    | .ok st => some (List.ofFn (fun r => mShow (st r)))
    | _ => none
  | _ => none

/-- The same after the arguments are read. -/
def pLoop (first last : Int) (disks : Int → Disk ℚ Nat) : Outcome ((Int → Disk ℚ Nat) × List (List Char)) := do
  let st ← loadBefore 2 (buildOf id (mBuild true false) pC) pC first disks
  let y ← mainLoop (buildOf id (mBuild true false) pC) pC pInput (last + 1 - first).toNat first st disks
  .ok (y.2, dumpParameters printWhole [] pC)

theorem pRun_eq {a b : List Char} {first last : Int} (ha : atoi a = .ok first) (hb : atoi b = .ok last) (disks : Int → Disk ℚ Nat) :
    program 32 readWhole printWhole [] pEnv (fun _ : Fin 2 => defaults true blankParams) id (mBuild true false) pInput [pName, a, b] disks = pLoop first last disks :=
  (pSetting true false).program_eq ((pSetting true false).two ha hb []) disks

/-- `HBT run.conf 0 1` from an empty directory, as the next start would read it. -/
theorem pFirst : pShow 2 (program 32 readWhole printWhole [] pEnv (fun _ : Fin 2 => defaults true blankParams) id (mBuild true false) pInput
    [pName, "0".toList, "1".toList] mNone) = some [
      [⟨0, 200, 0, [], 9, [(9, 99), (2, 99), (3, 99), (4, 99), (5, 99), (1, 99), (7, 99), (8, 99), (6, 99)], -1, -1⟩],
      [⟨1, -1, 0, [], 2, [(10, 99), (8, 99), (9, 99), (7, 99)], -1, -1⟩, ⟨2, 203, 0, [], 2, [(12, 99), (11, 99)], -1, -1⟩]] := by
  rw [pRun_eq (first := 0) (last := 1) (by decide +kernel) (by decide +kernel)]
  decide +kernel

/-- ... and after `HBT run.conf 2`: the third track has merged into the first. -/
theorem pSecond : pShow 3 (do
      let y ← program 32 readWhole printWhole [] pEnv (fun _ : Fin 2 => defaults true blankParams) id (mBuild true false) pInput [pName, "0".toList, "1".toList] mNone
      program 32 readWhole printWhole [] pEnv (fun _ : Fin 2 => defaults true blankParams) id (mBuild true false) pInput [pName, "2".toList] y.1) = some [
      [⟨0, 300, 0, [2], 11, [(12, 99), (2, 99), (3, 99), (4, 99), (5, 99), (6, 99), (7, 99), (8, 99), (9, 99), (11, 99), (1, 99)], -1, -1⟩,
       ⟨2, 300, 1, [], 1, [(11, 99)], 2, 0⟩],
      [⟨1, -1, 0, [], 4, [(7, 99), (8, 99), (9, 99), (10, 99)], -1, -1⟩]] := by
  rw [pRun_eq (first := 0) (last := 1) (by decide +kernel) (by decide +kernel)]
  have : ∀ y : (Int → Disk ℚ Nat) × List (List Char), program 32 readWhole printWhole [] pEnv (fun _ : Fin 2 => defaults true blankParams) id (mBuild true false)
      pInput [pName, "2".toList] y.1 = pLoop 2 2 y.1 := fun y => by
    rw [C71_one_number, pRun_eq (first := 2) (last := 2) (by decide +kernel) (by decide +kernel)]
  simp only [this]
  decide +kernel

/-- `C71_range` for this case: the first two snapshots, and then the second again and the third. -/
example : ∃ d1 d2 log, program 32 readWhole printWhole [] pEnv (fun _ : Fin 2 => defaults true blankParams) id (mBuild false true) pInput
      [pName, decimal 0, decimal 1] mNone = .ok (d1, log) ∧
    program 32 readWhole printWhole [] pEnv (fun _ : Fin 2 => defaults true blankParams) id (mBuild false true) pInput [pName, decimal 1, decimal 2] d1 = .ok (d2, log) ∧
    d2 0 = d1 0 := by
  have hmin := pC_checks.2.2.2.1
  have hmax := pC_checks.2.2.2.2.1
  obtain ⟨d1, hist, e1, hr, hl, _⟩ := C71_range (printReal := printWhole) (version := []) (pSetting false true) (.start mNone) (s := 0) (e := 1)
    (by rw [hmin]) (by rw [hmin]; simp) (by decide) (by rw [hmax]; decide) (by constructor <;> norm_num) (by constructor <;> norm_num)
  rw [hmin] at hl
  obtain ⟨d2, _, e2, _, _, _, _, hd⟩ := C71_range (printReal := printWhole) (version := []) (pSetting false true) hr (s := 1) (e := 2)
    (by rw [hmin]; decide) (by rw [hmin]; omega) (by decide) (by rw [hmax]) (by constructor <;> norm_num) (by constructor <;> norm_num)
  exact ⟨d1, d2, _, e1, e2, hd 0 (Or.inl (by decide))⟩

/-- `C71_split` for this case. -/
example : ∃ d1 d2 dF log, program 32 readWhole printWhole [] pEnv (fun _ : Fin 2 => defaults true blankParams) id (mBuild true false) pInput
      [pName, decimal 0, decimal 0] mNone = .ok (d1, log) ∧
    program 32 readWhole printWhole [] pEnv (fun _ : Fin 2 => defaults true blankParams) id (mBuild true false) pInput [pName, decimal (0 + 1), decimal 2] d1 = .ok (d2, log) ∧
    program 32 readWhole printWhole [] pEnv (fun _ : Fin 2 => defaults true blankParams) id (mBuild true false) pInput [pName, decimal 0, decimal 2] mNone = .ok (dF, log) ∧
    ∀ i, 0 ≤ i → i ≤ 2 → ∀ r < 2, (d2 i).sub r = (dF i).sub r ∧ (d2 i).src r = (dF i).src r := by
  have hmin := pC_checks.2.2.2.1
  have hmax := pC_checks.2.2.2.2.1
  exact C71_split (pSetting true false) (.start mNone) (by rw [hmin]) (by rw [hmin]; simp) (by decide) (by decide) (by rw [hmax])
    (by constructor <;> norm_num) (by constructor <;> norm_num)

/-- `C71_whole_run` for this case. -/
example : ∃ disks', program 32 readWhole printWhole [] pEnv (fun _ : Fin 2 => defaults true blankParams) id (mBuild true false) pInput [pName] mNone =
    .ok (disks', dumpParameters printWhole [] pC) :=
  (C71_whole_run (pSetting true false) (by rw [pC_checks.2.2.2.1, pC_checks.2.2.2.2.1]; decide) mNone).imp (fun _ h => h.1)

/-- The texts that `atoi` reads as 0, and `12abc`. -/
example : atoi "all".toList = .ok 0 ∧ atoi "--last".toList = .ok 0 ∧ atoi " -12abc".toList = .ok (-12) ∧ atoi "9999999999".toList = .ub := by
  decide +kernel

end HBT.Props
