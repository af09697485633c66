import Verif.Model.ReaderScale
import Verif.Props.Cosmology
/-!
# C78: the scale factors that the reader of catalogues shows
-/
namespace HBT.Props
open HBT HBT.Spec HBT.Model
variable {K D E S R Q : Type}

theorem scaleFactors_ok {root : CosmoRoot Q} {rd : Reader} {f : Int → Q} (l : List Int) (h : ∀ i ∈ l, getScaleFactor root rd i = .ok (f i)) :
    scaleFactors root rd l = .ok (l.map f) := by
  induction l with
  | nil => rfl
  | cons i l ih =>
    rw [scaleFactors, h i List.mem_cons_self, Outcome.bind_ok, ih (fun j hj => h j (List.mem_cons_of_mem _ hj)), Outcome.bind_ok]
    rfl

theorem getTrackRows_fst {root : SubRoot K D} {rd : Reader} {t : Int} (l : List Int) {rows : List (Int × Sub K D)} (h : getTrackRows root rd t l = .ok rows) :
    rows.map Prod.fst = l := by
  induction l generalizing rows with
  | nil => cases h; rfl
  | cons i l ih =>
    rw [getTrackRows] at h
    obtain ⟨a, h1, h⟩ := bind_eq_ok h
    obtain ⟨r, h2, h⟩ := bind_eq_ok h
    cases h
    rw [List.map_cons, ih h2]
    rw [getTrackRow] at h1
    obtain ⟨m, _, h1⟩ := bind_eq_ok h1
    split at h1
    · cases h1; rfl
    · cases h1

theorem readerSnapshots_mem {m i : Int} {rd : Reader} : i ∈ readerSnapshots m rd ↔ m ≤ i ∧ i ≤ rd.maxSnap := by
  unfold readerSnapshots
  rw [List.mem_map]
  constructor
  · rintro ⟨k, hk, rfl⟩
    have := List.mem_range.1 hk
    omega
  · rintro ⟨h1, h2⟩
    exact ⟨(i - m).toNat, List.mem_range.2 (by omega), by omega⟩

section
variable [Field Q] [LinearOrder Q] [IsStrictOrderedRing Q] [FloorRing Q] [LinearOrder K] [MassSum K] [Mul K] [LinearOrder R] [LinearOrder E] [Zero E]
variable {wide : Nat} {readReal : List Char → ℚ → ℚ} {printReal : ℚ → List Char} {version : List Char} {env : Surroundings} {P : Nat} [NeZero P]
  {c0 : Fin P → HBT.Params ℚ} {real : ℚ → K} {realQ : ℚ → Q} {fixed : Build K D S} {rd : Readers D S Q} {files : Int → InputFiles Q}
  {input : Int → (Fin P → Option (Cosmology Q)) → SnapInput K D E S R P × List (WriteOp P)} {name : List Char} {c : HBT.Params ℚ}
  {parts : Int → List (Particle D)} {groups : Int → List (Int × List Int)}

/-- C78. After a whole run, a reader (of the files of the snapshots, `multi`, or of catalogues combined from them, `single`) shows for each snapshot the scale factor of the
header of that snapshot, also when snapshots are counted from the last; it knows the density parameters of the last snapshot; and in a track each row has the scale factor
of the header of its snapshot. -/
theorem C78_reader (fl : Q → Q) (epochs : Int → Epoch Q)
    (h : FileSetting wide readReal env c0 real realQ fixed rd files (fun i => input i (fun _ => some (ownCosmology rd realQ c fl epochs i))) name c parts groups)
    (hE : ∀ i, c.minSnapshotIndex ≤ i → i ≤ c.maxSnapshotIndex → HeaderSays (readersOf realQ rd c) (files i) (epochs i))
    (h0 : c.minSnapshotIndex ≤ c.maxSnapshotIndex) (disks : Int → Disk K D) (cosmo : Int → CosmoDisk Q) :
    ∃ disks' cosmo', cosmoProgram wide readReal printReal version env c0 real realQ fixed rd fl files input [name] disks cosmo =
        .ok (disks', dumpParameters printReal version c, cosmo') ∧
      ∀ (root : CosmoRoot Q) (n : Nat), root.multi = cosmo' →
        (∀ i, c.minSnapshotIndex ≤ i → i ≤ c.maxSnapshotIndex → ∃ g, combineGroup (cosmo' i) = .ok g ∧ (n = 0 → root.single i = some g)) →
        (∀ i, c.minSnapshotIndex ≤ i → i ≤ c.maxSnapshotIndex → ∀ isnap, (isnap = i ∨ isnap = i - c.maxSnapshotIndex - 1) →
          getScaleFactor root ⟨c.maxSnapshotIndex, n⟩ isnap = .ok (fl (epochs i).scale)) ∧
        readerOmegas root ⟨c.maxSnapshotIndex, n⟩ = .ok (fl (epochs c.maxSnapshotIndex).omegaM, fl (epochs c.maxSnapshotIndex).omegaLambda) ∧
        (∃ d, scaleFactorDict c.minSnapshotIndex root ⟨c.maxSnapshotIndex, n⟩ = .ok d ∧
          ∀ i a, (i, a) ∈ d ↔ c.minSnapshotIndex ≤ i ∧ i ≤ c.maxSnapshotIndex ∧ a = fl (epochs i).scale) ∧
        ∀ (catalogues : SubRoot K D) (t : Int) (rows : List (Int × Sub K D)), getTrack catalogues ⟨c.maxSnapshotIndex, n⟩ t = .ok rows →
          (∀ x ∈ rows, c.minSnapshotIndex ≤ x.1) →
          getTrackScaled catalogues root ⟨c.maxSnapshotIndex, n⟩ t = .ok (rows.map (fun x => (x, fl (epochs x.1).scale))) := by
  obtain ⟨disks', cosmo', e1, _, e3⟩ := C78_whole_run (printReal := printReal) (version := version) fl epochs h hE h0 disks cosmo
  refine ⟨disks', cosmo', e1, fun root n hm hs => ?_⟩
  have hmin : 0 ≤ c.minSnapshotIndex := h.build.minIndex
  have hP : 0 < P := h.procs.pos
  have hopen : ∀ i, c.minSnapshotIndex ≤ i → i ≤ c.maxSnapshotIndex → ∀ isnap, (isnap = i ∨ isnap = i - c.maxSnapshotIndex - 1) →
      openGroup root ⟨c.maxSnapshotIndex, n⟩ isnap 0 = .ok ⟨fl (epochs i).omegaM, fl (epochs i).omegaLambda, (ownCosmology rd realQ c fl epochs i).hz, fl (epochs i).scale⟩ := by
    intro i i1 i2 isnap hi
    have hidx : (if isnap < 0 then c.maxSnapshotIndex + 1 + isnap else isnap) = i := by
      split_ifs <;> omega
    unfold openGroup
    simp only
    rw [hidx, hm]
    have he := e3 i i1 i2 0 hP
    obtain ⟨g, hg, hs⟩ := hs i i1 i2
    rw [combineGroup, he] at hg
    cases hg
    by_cases hn : n = 0
    · rw [if_neg (not_not_intro hn), hs hn]
    · rw [if_pos hn, he]
  have hscale : ∀ i, c.minSnapshotIndex ≤ i → i ≤ c.maxSnapshotIndex → ∀ isnap, (isnap = i ∨ isnap = i - c.maxSnapshotIndex - 1) →
      getScaleFactor root ⟨c.maxSnapshotIndex, n⟩ isnap = .ok (fl (epochs i).scale) := by
    intro i i1 i2 isnap hi
    rw [getScaleFactor, hopen i i1 i2 isnap hi, Outcome.bind_ok]
  refine ⟨hscale, ?_, ?_, fun catalogues t rows hrows hmin' => ?_⟩
  · rw [readerOmegas, hopen c.maxSnapshotIndex h0 (le_refl _) (-1) (Or.inr (by omega)), Outcome.bind_ok]
  · rw [scaleFactorDict, scaleFactors_ok (f := fun i => fl (epochs i).scale) _ (fun i hi => ?_), Outcome.bind_ok]
    · refine ⟨_, rfl, fun i a => ?_⟩
      rw [← List.map_id (readerSnapshots _ _), List.map_map, List.zip_map', List.mem_map]
      constructor
      · rintro ⟨j, hj, hij⟩
        cases hij
        exact ⟨(readerSnapshots_mem.1 hj).1, (readerSnapshots_mem.1 hj).2, rfl⟩
      · rintro ⟨h1, h2, rfl⟩
        exact ⟨i, readerSnapshots_mem.2 ⟨h1, h2⟩, rfl⟩
    · have hi := readerSnapshots_mem.1 hi
      exact hscale i hi.1 hi.2 i (Or.inl rfl)
  · have hfst : ∀ x ∈ rows, x.1 ≤ c.maxSnapshotIndex := by
      intro x hx
      rw [getTrack] at hrows
      obtain ⟨l, _, hrows⟩ := bind_eq_ok hrows
      split at hrows
      · cases hrows
      · have := getTrackRows_fst _ hrows
        have hm := List.mem_map_of_mem (f := Prod.fst) hx
        rw [this] at hm
        exact (readerSnapshots_mem.1 hm).2
    rw [getTrackScaled, hrows, Outcome.bind_ok, scaleFactors_ok (f := fun i => fl (epochs i).scale) _ (fun i hi => ?_), Outcome.bind_ok]
    · rw [List.map_map]
      congr 1
      clear hfst hmin' hrows
      induction rows with
      | nil => rfl
      | cons x rows ih => rw [List.map_cons, List.zip_cons_cons, ih]; rfl
    · obtain ⟨x, hx, rfl⟩ := List.mem_map.1 hi
      exact hscale x.1 (hmin' x hx) (hfst x hx) x.1 (Or.inl rfl)

end

/-- `C78_reader` for the files of `ProgramFilesExample`, written by two processes and read without combining them: the last snapshot, and the one before it. -/
example (disks : Int → Disk ℚ Nat) (cosmo : Int → CosmoDisk ℚ) : ∃ epochs : Int → Epoch ℚ, ∃ disks' cosmo',
    cosmoProgram 32 readWhole printWhole [] ProgramFilesExample.around (fun _ : Fin 2 => defaults true blankParams) id id (InputExample.build "gadget2_int")
      (InputExample.readers "" "") id InputExample.gadgetInput (fun i _ => ProgramFilesExample.input i) [ProgramFilesExample.name] disks cosmo =
      .ok (disks', dumpParameters printWhole [] ProgramFilesExample.c, cosmo') ∧
    getScaleFactor ⟨fun _ => none, cosmo'⟩ ⟨1, 2⟩ (-1) = .ok (epochs 1).scale ∧ getScaleFactor ⟨fun _ => none, cosmo'⟩ ⟨1, 2⟩ (-2) = .ok (epochs 0).scale := by
  have hmin := ProgramFilesExample.c_checks.2.2.2.1
  have hmax := ProgramFilesExample.c_checks.2.2.2.2
  obtain ⟨epochs, hE⟩ := exampleEpochs
  obtain ⟨disks', cosmo', h1, _, h2⟩ := C78_whole_run (printReal := printWhole) (version := []) (input := fun i _ => ProgramFilesExample.input i) id epochs
    ProgramFilesExample.setting hE (by rw [hmin, hmax]; decide) disks cosmo
  obtain ⟨disks'', cosmo'', h1', h3⟩ := C78_reader (printReal := printWhole) (version := []) (input := fun i _ => ProgramFilesExample.input i) id epochs
    ProgramFilesExample.setting hE (by rw [hmin, hmax]; decide) disks cosmo
  have heq := h1.symm.trans h1'
  injection heq with heq
  injection heq with ha hb
  injection hb with _ hc
  subst ha
  subst hc
  obtain ⟨h4, _⟩ := h3 ⟨fun _ => none, cosmo'⟩ 2 rfl (fun i i1 i2 => ⟨_, by rw [combineGroup, h2 i i1 i2 0 (by decide)], fun h => absurd h (by decide)⟩)
  rw [hmin, hmax] at h4
  exact ⟨epochs, disks', cosmo', h1, h4 1 (by decide) (by decide) (-1) (Or.inr (by decide)), h4 0 (by decide) (by decide) (-2) (Or.inr (by decide))⟩

end HBT.Props
