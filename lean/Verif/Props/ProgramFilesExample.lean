import Verif.Props.ProgramFiles
import Verif.Props.ProgramExample
import Verif.Props.InputExample
/-!
# C72: an example

The Gadget files of `Verif.Props.InputExample`, with a parameter file.
-/
namespace HBT.Props.ProgramFilesExample
open HBT HBT.Model HBT.Spec HBT.MainLoop HBT.Props HBT.Props.InputExample

def conf : List (List Char) :=
  ["[Files]".toList, "SnapshotPath /data/snap".toList, "HaloPath /data/groups".toList, "SubhaloPath out".toList, "SnapshotFileBase s".toList,
   "GroupFileFormat gadget2_int # flat".toList, "SnapshotIdUnsigned 1".toList, "MaxSnapshotIndex 1".toList, "BoxSize 100".toList, "SofteningHalo 1".toList,
   "[Tracking]".toList, "MinNumPartOfSub 2".toList, "RefineMostboundParticle 0".toList, "MaxSampleSizeOfPotentialEstimate 0".toList]

def name : List Char := "run.conf".toList

def around : Surroundings := ⟨fun f => if f = name then some conf else none, none⟩

def parsed : Outcome (HBT.Params ℚ) := parseConfig 32 readWhole none (defaults true blankParams) conf

def c : HBT.Params ℚ := match parsed with
  | .ok c => c
  | _ => blankParams

theorem c_parsed : parsed = .ok c := by
  have h : (match parsed with | .ok _ => true | _ => false) = true := by decide +kernel
  unfold c
  split at h
  · next c hc => rw [hc]
  · cases h

theorem c_checks : c.minNumPartOfSub = 2 ∧ c.boundMassPrecision = 995 / 1000 ∧ c.sourceSubRelaxFactor = 3 ∧ c.minSnapshotIndex = 0 ∧ c.maxSnapshotIndex = 1 := by
  decide +kernel

theorem c_full : c.groupLoadedFullParticle = false := by decide +kernel

theorem c_readers : c.snapshotFormat = "gadget".toList ∧ c.groupFileFormat = "gadget2_int".toList ∧ c.groupParticleIdMask = 0 ∧ c.boxSize = 100 ∧
    c.periodicBoundaryOn = true ∧ c.snapshotHasIdBlock = true ∧ c.particleIdRankStyle = false ∧ c.snapshotIdUnsigned = true := by
  decide +kernel

theorem c_sendable : Sendable c := by
  constructor <;> decide +kernel

theorem there : around.file name = some conf := by
  show (if name = name then some conf else none) = some conf
  exact if_pos rfl

abbrev b : Build ℚ Nat Int := buildOf id (build "gadget2_int") c

theorem rd_eq : readersOf id (readers "" "") c = readers "gadget" "gadget2_int" := by
  obtain ⟨h1, h2, h3, h4, h5, h6, h7, h8⟩ := c_readers
  unfold readersOf
  rw [h1, h2, h3, h4, h5, h6, h7, h8]
  rfl

theorem min_eq {i : Int} (h : b.minIndex ≤ i) : (build "gadget2_int").minIndex ≤ i := by
  have h : c.minSnapshotIndex ≤ i := h
  rw [c_checks.2.2.2.1] at h
  exact h

/-- Two processes. -/
def input (i : Int) : SnapInput ℚ Nat Int Int Int 2 × List (WriteOp 2) := (world 2 i, mOps2)

theorem setting : FileSetting 32 readWhole around (fun _ : Fin 2 => defaults true blankParams) id id (build "gadget2_int") (readers "" "") gadgetInput
    input name c gadgetParts gadgetGroups where
  parsed := ⟨conf, there, c_parsed⟩
  send := c_sendable
  last := by rw [c_checks.2.2.2.2]; norm_num
  build := by
    obtain ⟨h1, h2, h3, h4, _⟩ := c_checks
    exact buildOf_ok (build_ok _) (by rw [h1]) (stops_exact (by rw [h2]; norm_num)) (keeps_exact (by rw [h3]; norm_num)) (by rw [h4])
  readers := by
    rw [rd_eq]
    have h := readers_ok "gadget" "gadget2_int"
    refine ⟨h.haloId, h.sorts, h.root, h.blank, ?_⟩
    show c.groupLoadedFullParticle = _
    rw [c_full]
    decide
  files_ := by
    rw [rd_eq, c_checks.2.2.2.2]
    have h := gadget_ok
    refine ⟨fun i h0 h1 => h.parts_ i (min_eq h0) h1, fun i h0 h1 => h.groups_ i (min_eq h0) h1, fun i h0 h1 => h.distinct i (min_eq h0) h1,
      fun i h0 h1 => h.nonneg i (min_eq h0) h1, fun i h0 h1 => h.stay i (min_eq h0) h1, fun i h0 h1 hn g hg x hx => ?_⟩
    have := h.members i (min_eq h0) h1 hn g hg x hx
    show if c.groupLoadedFullParticle then _ else _
    rw [c_full]
    exact this
  procs := by
    rw [rd_eq, c_checks.2.2.2.2]
    have h := gadget_procs 2 (by decide) (by decide)
    exact ⟨h.pos, h.few, fun i h0 h1 => h.enough i (min_eq h0) h1, fun hg i h0 h1 => h.grouped hg i (min_eq h0) h1⟩
  worlds i := by
    have h := world_ok (P := 2) "gadget2_int" i (fun _ => []) (fun _ => [])
    exact ⟨h.tableOrder, h.feedOrder, h.nestOrder, h.maskOrder, h.hostOrder, h.loneOrder, h.mergeOrder, h.eachOrder, h.env, h.env'⟩
  ops _ := ops_ok

/-- `C72_catalogues` for this case. -/
example (disks : Int → Disk ℚ Nat) : ∃ disks', programOnFiles 32 readWhole printWhole [] around (fun _ : Fin 2 => defaults true blankParams) id id
      (build "gadget2_int") (readers "" "") gadgetInput input [name] disks = .ok (disks', dumpParameters printWhole [] c) ∧
    ∃ ld : Fin 3 → List (Sub ℚ Nat), ∃ id, loadSubs 3 .source 99 0 1 id (disks' 1) = .ok ld ∧
      ∀ s ∈ everyone ld, ∀ p ∈ s.particles, ∃ q ∈ gadgetParts 1, q.id = p.id := by
  have hmin := c_checks.2.2.2.1
  have hmax := c_checks.2.2.2.2
  obtain ⟨disks', e, h⟩ := C72_catalogues (printReal := printWhole) (version := []) setting (by rw [hmin, hmax]; decide) disks
  obtain ⟨id, ld, _, e2, _, h⟩ := h 1 (by rw [hmin]; decide) (by rw [hmax]) 3 (by decide)
  rw [hmin] at e2
  exact ⟨disks', e, ld, id, e2, fun s hs => (h s hs).2.1⟩

/-- `C72_full_groups` for this file. -/
example : c.groupLoadedFullParticle = decide (c.groupFileFormat = "apostle_particle_index".toList) := C72_full_groups (by decide) c_parsed

/-- `C72_unknown_format`: a file with another format. -/
example : (match parseConfig 32 readWhole none (defaults true blankParams) (conf ++ ["SnapshotFormat gadget4".toList]) with
    | .ok c => decide (String.ofList c.snapshotFormat ∉ ["gadget", "apostle", "mysnapshot"]) | _ => false) = true := by decide +kernel

/-- The same after the arguments are read. -/
def loop (first last : Int) (disks : Int → Disk ℚ Nat) : Outcome ((Int → Disk ℚ Nat) × List (List Char)) := do
  let st ← loadBefore 2 b c first disks
  let y ← fileLoop b (readers "gadget" "gadget2_int") c gadgetInput input (last + 1 - first).toNat first st disks
  .ok (y.2, dumpParameters printWhole [] c)

/-- What the program leaves, as a start at snapshot `s` would read it. -/
def leaves (s : Int) (x : Outcome ((Int → Disk ℚ Nat) × List (List Char))) : Option (List (List MRow)) :=
  match x with
  | .ok y => match launch 2 b s y.1 with
    | .ok st => some (List.ofFn (fun r => mShow (st r)))
    | _ => none
  | _ => none

/-- From bytes to the catalogue: `HBT run.conf 0 1`. -/
theorem bytes_to_catalogue : leaves 2 (programOnFiles 32 readWhole printWhole [] around (fun _ : Fin 2 => defaults true blankParams) id id
      (build "gadget2_int") (readers "" "") gadgetInput input [name, "0".toList, "1".toList] mNone) =
    some [[⟨0, 0, 0, [1], 8, [(7, 99), (2, 99), (3, 99), (4, 99), (5, 99), (1, 99), (9, 99), (6, 99)], -1, -1⟩,
      ⟨1, 0, 1, [], 2, [(10, 99), (8, 99), (9, 99), (7, 99)], -1, -1⟩], []] := by
  rw [setting.program_eq (setting.two (first := 0) (last := 1) (by decide +kernel) (by decide +kernel) []), rd_eq]
  show leaves 2 (loop 0 1 mNone) = _
  decide +kernel

end HBT.Props.ProgramFilesExample
