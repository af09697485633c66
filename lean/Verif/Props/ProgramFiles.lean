import Verif.Model.ProgramFiles
import Verif.Props.Program
import Verif.Props.Input
/-!
# C72: from the parameter file, the files of the simulation and the command line to the catalogues
-/
set_option linter.unusedSectionVars false
namespace HBT.Props
open HBT HBT.Model HBT.Spec HBT.MainLoop
variable {K D E S R Q : Type}

section
variable [LinearOrder K] [MassSum K] [Mul K] [LinearOrder R] [LinearOrder E] [Zero E] [Field Q] [LinearOrder Q] [IsStrictOrderedRing Q] [FloorRing Q]
  {P : Nat} [NeZero P]

/-- What is assumed of a start of the program with parameter file `name` on the files of a simulation: the parameter file can be parsed,
with result `c`, and its texts are shorter than 2^31-1 characters; `MaxSnapshotIndex` is less than 2^31-1; the parameters make sense; for each
snapshot from `MinSnapshotIndex` to `MaxSnapshotIndex` the files hold the particles `parts i` and the groups `groups i`; the number of processes is
suitable; schedules run each iteration once, and each process writes its files. -/
structure FileSetting (wide : Nat) (readReal : List Char → ℚ → ℚ) (env : Surroundings) (c0 : Fin P → HBT.Params ℚ) (real : ℚ → K) (realQ : ℚ → Q)
    (fixed : Build K D S) (rd : Readers D S Q) (files : Int → InputFiles Q) (input : Int → SnapInput K D E S R P × List (WriteOp P))
    (name : List Char) (c : HBT.Params ℚ) (parts : Int → List (Particle D)) (groups : Int → List (Int × List Int)) : Prop where
  parsed : ∃ lines, env.file name = some lines ∧ parseConfig wide readReal env.list (c0 0) lines = .ok c
  send : Sendable c
  last : c.maxSnapshotIndex < (2 : Int) ^ 31 - 1
  build : BuildOk (buildOf real fixed c)
  readers : ReadersOk (buildOf real fixed c) (readersOf realQ rd c)
  files_ : FilesOk (buildOf real fixed c) (readersOf realQ rd c) files c.maxSnapshotIndex parts groups
  procs : ProcsOk (buildOf real fixed c) (readersOf realQ rd c) c.maxSnapshotIndex parts groups P
  worlds : ∀ i, WorldOk (buildOf real fixed c) (input i).1
  ops : ∀ i r, .sub r ∈ (input i).2 ∧ .src r ∈ (input i).2

variable {wide : Nat} {readReal : List Char → ℚ → ℚ} {printReal : ℚ → List Char} {version : List Char} {env : Surroundings} {c0 : Fin P → HBT.Params ℚ}
  {real : ℚ → K} {realQ : ℚ → Q} {fixed : Build K D S} {rd : Readers D S Q} {files : Int → InputFiles Q}
  {input : Int → SnapInput K D E S R P × List (WriteOp P)} {name : List Char} {c : HBT.Params ℚ} {parts : Int → List (Particle D)}
  {groups : Int → List (Int × List Int)}

theorem FileSetting.index (h : FileSetting wide readReal env c0 real realQ fixed rd files input name c parts groups) {i : Int}
    (h1 : c.minSnapshotIndex ≤ i) (h2 : i ≤ c.maxSnapshotIndex) : ∃ id, setSnapshotIndex c i = .ok ⟨i, id⟩ := by
  obtain ⟨lines, _, hc⟩ := h.parsed
  obtain ⟨id, e, _⟩ := C46_accepted hc h.build.minIndex h1 h2
  exact ⟨id, e⟩

theorem FileSetting.worlds_ (h : FileSetting wide readReal env c0 real realQ fixed rd files input name c parts groups) :
    ∀ (n : Nat) (i : Int), Worlds (buildOf real fixed c) i (inputsFrom input n i)
  | 0, i => .nil i
  | n + 1, i =>
    .cons rfl ⟨(h.worlds i).tableOrder, (h.worlds i).feedOrder, (h.worlds i).nestOrder, (h.worlds i).maskOrder, (h.worlds i).hostOrder,
      (h.worlds i).loneOrder, (h.worlds i).mergeOrder, (h.worlds i).eachOrder, (h.worlds i).env, (h.worlds i).env'⟩ (h.ops i) (h.worlds_ n (i + 1))

theorem FileSetting.fileLoop_eq (h : FileSetting wide readReal env c0 real realQ fixed rd files input name c parts groups) :
    ∀ (n : Nat) (i : Int) (st : Fin P → List (Sub K D)) (disks : Int → Disk K D), c.minSnapshotIndex ≤ i → i + n ≤ c.maxSnapshotIndex + 1 →
      fileLoop (buildOf real fixed c) (readersOf realQ rd c) c files input n i st disks =
        fileSession (buildOf real fixed c) (readersOf realQ rd c) files (inputsFrom input n i) st disks
  | 0, i, st, disks, _, _ => rfl
  | n + 1, i, st, disks, h1, h2 => by
    obtain ⟨s, e⟩ := h.index h1 (by omega)
    rw [fileLoop, e, Outcome.bind_ok, inputsFrom, fileSession]
    congr 1
    funext y
    have := h.last
    rw [if_neg (by omega)]
    exact h.fileLoop_eq n (i + 1) _ _ (by omega) (by omega)

theorem FileSetting.program_eq (h : FileSetting wide readReal env c0 real realQ fixed rd files input name c parts groups) {args : List (List Char)}
    {first last : Int} (ha : parseHBTParams wide readReal env (c0 0) (name :: args) = .ok (c, first, last)) (disks : Int → Disk K D) :
    programOnFiles wide readReal printReal version env c0 real realQ fixed rd files input (name :: args) disks = (do
      let st ← loadBefore P (buildOf real fixed c) c first disks
      let y ← fileLoop (buildOf real fixed c) (readersOf realQ rd c) c files input (last + 1 - first).toNat first st disks
      .ok (y.2, dumpParameters printReal version c)) := by
  rw [programOnFiles, ha, Outcome.bind_ok]
  simp only
  rw [C52_broadcast (root := (0 : Fin P)) (st := fun r => if r = 0 then c else c0 r)
    (by show Sendable (if (0 : Fin P) = 0 then c else c0 0); rw [if_pos rfl]; exact h.send), Outcome.bind_ok]
  simp only [if_true]

theorem FileSetting.two (h : FileSetting wide readReal env c0 real realQ fixed rd files input name c parts groups) {a b : List Char} {first last : Int}
    (ha : atoi a = .ok first) (hb : atoi b = .ok last) (more : List (List Char)) :
    parseHBTParams wide readReal env (c0 0) (name :: a :: b :: more) = .ok (c, first, last) := by
  obtain ⟨lines, h1, h2⟩ := h.parsed
  rw [parseHBTParams]
  rw [h1]
  simp only
  rw [h2, Outcome.bind_ok]
  rw [ha, Outcome.bind_ok, hb, Outcome.bind_ok]

theorem entries_full {T : Type} (wide : Nat) (readReal : List Char → T → T) : ∀ e ∈ entries wide readReal, ∀ t c,
    (e.2 t c).groupLoadedFullParticle = c.groupLoadedFullParticle := by
  intro e he
  unfold entries at he
  repeat' (rcases List.mem_cons.1 he with rfl | he; exact fun _ _ => rfl)
  cases he

/-- C72. Whether groups come with the data of their particles is not a parameter: it follows from the format of the groups. -/
theorem C72_full_groups {lines : List (List Char)} {list : Option (List (List Char))} {c1 : HBT.Params ℚ} (h1 : c1.groupLoadedFullParticle = false)
    (h : parseConfig wide readReal list c1 lines = .ok c) :
    c.groupLoadedFullParticle = decide (c.groupFileFormat = "apostle_particle_index".toList) := by
  have hfold : ∀ (l : List (List Char)) (x y : HBT.Params ℚ), l.foldlM (parseLine wide readReal) x = .ok y → x.groupLoadedFullParticle = false →
      y.groupLoadedFullParticle = false := by
    intro l
    induction l with
    | nil => intro x y e hx; cases e; exact hx
    | cons a l ih =>
      intro x y e hx
      rw [List.foldlM_cons] at e
      obtain ⟨z, e1, e2⟩ := bind_eq_ok e
      refine ih z y e2 ?_
      unfold parseLine at e1
      simp only at e1
      split_ifs at e1 with ht
      · cases e1; exact hx
      · unfold setParameterValue at e1
        simp only at e1
        split at e1
        · next en hen =>
          cases e1
          rw [entries_full wide readReal en (List.mem_of_find?_eq_some hen)]
          exact hx
        · cases e1
  rw [parseConfig] at h
  obtain ⟨x, e1, h⟩ := bind_eq_ok h
  obtain ⟨_, _, h⟩ := bind_eq_ok h
  have hx := hfold lines c1 x e1 h1
  have hd : (deriveParams x).groupLoadedFullParticle = decide ((deriveParams x).groupFileFormat = "apostle_particle_index".toList) := by
    show (if x.groupFileFormat = "apostle_particle_index".toList then true else x.groupLoadedFullParticle) = decide (x.groupFileFormat = _)
    rw [hx]
    by_cases hf : x.groupFileFormat = "apostle_particle_index".toList
    · rw [if_pos hf]; exact (decide_eq_true hf).symm
    · rw [if_neg hf]; exact (decide_eq_false hf).symm
  unfold readNames at h
  split at h
  · split_ifs at h
    cases h
    exact hd
  · simp only at h
    split_ifs at h
    cases h
    exact hd

/-- C72. `HBT name s e` on the files of a simulation, started when the snapshots before `s` are complete (or `s` is the first), does not fail, and then the
snapshots up to `e` are complete. -/
theorem C72_range (h : FileSetting wide readReal env c0 real realQ fixed rd files input name c parts groups) {disks : Int → Disk K D} {m : Nat}
    (hr : FileReach (R := R) (E := E) (buildOf real fixed c) (readersOf realQ rd c) files c.maxSnapshotIndex parts groups disks m) {s e : Int}
    (hs : c.minSnapshotIndex ≤ s) (hs' : s ≤ c.minSnapshotIndex + m) (hse : s ≤ e) (he : e ≤ c.maxSnapshotIndex) (rs : InRange 32 s) (re : InRange 32 e) :
    ∃ (disks' : Int → Disk K D) (m' : Nat), programOnFiles wide readReal printReal version env c0 real realQ fixed rd files input [name, decimal s, decimal e] disks
        = .ok (disks', dumpParameters printReal version c) ∧ c.minSnapshotIndex + (m' : Int) = e + 1 ∧
      FileReach (R := R) (E := E) (buildOf real fixed c) (readersOf realQ rd c) files c.maxSnapshotIndex parts groups disks' m' := by
  obtain ⟨n, rfl⟩ : ∃ n : Nat, s = c.minSnapshotIndex + n := ⟨(s - c.minSnapshotIndex).toNat, by omega⟩
  obtain ⟨k, rfl⟩ : ∃ k : Nat, e = c.minSnapshotIndex + n + k := ⟨(e - (c.minSnapshotIndex + n)).toNat, by omega⟩
  have hw := h.worlds_ (k + 1) (c.minSnapshotIndex + n)
  have hlen : (buildOf real fixed c).minIndex + (n : Int) + (inputsFrom input (k + 1) (c.minSnapshotIndex + n)).length ≤ c.maxSnapshotIndex + 1 := by
    rw [inputsFrom_length]
    show c.minSnapshotIndex + (n : Int) + (k + 1 : Nat) ≤ _
    push_cast
    omega
  obtain ⟨st, st', disks', e1, e2⟩ := C63_never_fails h.build h.readers h.files_ hr h.procs (n := n) (by omega) hw hlen
  have e1' : launch P (buildOf real fixed c) (c.minSnapshotIndex + n) disks = .ok st := e1
  have hmin : 0 ≤ c.minSnapshotIndex := h.build.minIndex
  refine ⟨disks', n + (k + 1), ?_, by push_cast; omega, ?_⟩
  · rw [h.program_eq (h.two (atoi_decimal rs) (atoi_decimal re) [])]
    have hl : loadBefore P (buildOf real fixed c) c (c.minSnapshotIndex + n) disks = .ok st := by
      rw [loadBefore, if_neg (by norm_num; omega)]
      split_ifs with h1
      · exact e1'
      · obtain ⟨s, e⟩ := h.index (i := c.minSnapshotIndex + n - 1) (by omega) (by omega)
        rw [e, Outcome.bind_ok, e1']
    rw [hl, Outcome.bind_ok, show (c.minSnapshotIndex + (n : Int) + k + 1 - (c.minSnapshotIndex + n)).toNat = k + 1 by omega,
      h.fileLoop_eq (k + 1) _ _ _ (by omega) (by push_cast; omega), e2, Outcome.bind_ok]
  · have := FileReach.session hr h.procs (n := n) (by omega) hw hlen e1 e2 (disks' ((buildOf real fixed c).minIndex + n + (inputsFrom input (k + 1) (c.minSnapshotIndex + n)).length))
    rw [inputsFrom_length] at this
    convert this using 1
    funext i
    split_ifs with hi
    · rw [hi]
    · rfl

/-- C72. The parameter file, the files of the simulation, nothing else: `HBT name` in a directory that may hold anything does not fail and leaves for each snapshot from
`MinSnapshotIndex` to `MaxSnapshotIndex` a catalogue that loads with any number of processes. In it the track ids are `0`, …, `N-1`, each once; each
track has at least `MinNumPartOfSub` bound particles, or is an orphan with at most one particle; its particles are in the files of this snapshot, and its host is
a group in the files of this snapshot, or none. -/
theorem C72_catalogues (h : FileSetting wide readReal env c0 real realQ fixed rd files input name c parts groups) (h0 : c.minSnapshotIndex ≤ c.maxSnapshotIndex)
    (disks : Int → Disk K D) :
    ∃ disks', programOnFiles wide readReal printReal version env c0 real realQ fixed rd files input [name] disks = .ok (disks', dumpParameters printReal version c) ∧
      ∀ i, c.minSnapshotIndex ≤ i → i ≤ c.maxSnapshotIndex → ∀ P', 0 < P' → ∃ id, ∃ ld : Fin P' → List (Sub K D),
        setSnapshotIndex c i = .ok ⟨i, id⟩ ∧ loadSubs P' .source fixed.blank c.minSnapshotIndex i id (disks' i) = .ok ld ∧
        (∃ N, ((everyone ld).map Sub.trackId).Perm ((List.range N).map (fun i : Nat => (i : Int)))) ∧
        ∀ s ∈ everyone ld,
          ((c.minNumPartOfSub ≤ s.nbound ∧ s.nbound ≤ s.particles.length) ∨ (s.nbound ≤ 1 ∧ s.particles.length = s.nbound)) ∧
          (∀ p ∈ s.particles, ∃ q ∈ parts i, q.id = p.id) ∧
          (s.hostHaloId = -1 ∨ ∃ g ∈ groups i, g.1 = s.hostHaloId) := by
  have hmin : 0 ≤ c.minSnapshotIndex := h.build.minIndex
  have hlast := h.last
  have r1 : InRange 32 c.minSnapshotIndex := ⟨by norm_num; omega, by norm_num at hlast ⊢; omega⟩
  have r2 : InRange 32 c.maxSnapshotIndex := ⟨by norm_num; omega, by norm_num at hlast ⊢; omega⟩
  obtain ⟨disks', m', e, hm, hr⟩ := C72_range (printReal := printReal) (version := version) h (.start disks) (le_refl _) (by simp) h0 (le_refl _) r1 r2
  refine ⟨disks', ?_, fun i i1 i2 P' hP' => ?_⟩
  · rw [← e, h.program_eq (h.two (atoi_decimal r1) (atoi_decimal r2) []), h.program_eq]
    obtain ⟨lines, e1, e2⟩ := h.parsed
    rw [parseHBTParams]
    rw [e1]
    simp only
    rw [e2, Outcome.bind_ok]
  · obtain ⟨ld, l1, l2, l3⟩ := C63_catalogue h.build h.readers h.files_ hr (i := i) i1 (show i < c.minSnapshotIndex + (m' : Int) by omega) hP'
    obtain ⟨id, e2⟩ := h.index i1 i2
    refine ⟨id, ld, e2, ?_, l2, fun s hs => ?_⟩
    · have : (buildOf real fixed c).snapId i = id := by
        show (match setSnapshotIndex c i with | .ok s => s.id | _ => nullSnap) = id
        rw [e2]
      rw [this] at l1
      exact l1
    · obtain ⟨t1, t2, t3⟩ := l3 s hs
      refine ⟨t1.imp (fun t => ⟨?_, t.2⟩) (fun q => q), t2, t3⟩
      have t : c.minNumPartOfSub.toNat ≤ s.nbound := t.1
      omega

/-- C72. A snapshot format that is not known stops the program. -/
theorem C72_unknown_format {lines : List (List Char)} (hfile : env.file name = some lines) (hparse : parseConfig wide readReal env.list (c0 0) lines = .ok c) (hs : Sendable c)
    (h0 : c.minSnapshotIndex ≤ c.maxSnapshotIndex) (hf : String.ofList c.snapshotFormat ∉ ["gadget", "apostle", "mysnapshot"]) (disks : Int → Disk K D) :
    ∀ y, programOnFiles wide readReal printReal version env c0 real realQ fixed rd files input [name] disks ≠ .ok y := by
  intro y hy
  have hp : parseHBTParams wide readReal env (c0 0) [name] = .ok (c, c.minSnapshotIndex, c.maxSnapshotIndex) := by
    rw [parseHBTParams, hfile]
    simp only
    rw [hparse, Outcome.bind_ok]
  rw [programOnFiles, hp, Outcome.bind_ok] at hy
  simp only at hy
  rw [C52_broadcast (root := (0 : Fin P)) (st := fun r => if r = 0 then c else c0 r)
    (by show Sendable (if (0 : Fin P) = 0 then c else c0 0); rw [if_pos rfl]; exact hs), Outcome.bind_ok] at hy
  simp only [if_true] at hy
  obtain ⟨st, _, hy⟩ := bind_eq_ok hy
  obtain ⟨z, hz, _⟩ := bind_eq_ok hy
  obtain ⟨k, hk⟩ : ∃ k, (c.maxSnapshotIndex + 1 - c.minSnapshotIndex).toNat = k + 1 := ⟨(c.maxSnapshotIndex - c.minSnapshotIndex).toNat, by omega⟩
  rw [hk, fileLoop] at hz
  obtain ⟨_, _, hz⟩ := bind_eq_ok hz
  obtain ⟨_, hz, _⟩ := bind_eq_ok hz
  simp only [List.mem_cons, List.not_mem_nil, or_false, not_or] at hf
  have hf : ¬ (readersOf realQ rd c).snapshotFormat = "gadget" ∧ ¬ (readersOf realQ rd c).snapshotFormat = "apostle" ∧
    ¬ (readersOf realQ rd c).snapshotFormat = "mysnapshot" := hf
  rw [fileSnapshot, readParts, if_neg hf.1, if_neg hf.2.1, if_neg hf.2.2] at hz
  cases hz

end
end HBT.Props
