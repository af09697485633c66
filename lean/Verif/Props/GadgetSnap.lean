import Verif.Lemmas.GadgetLoad
import Verif.Spec.Basics
/-!
# C57: loading a Gadget snapshot
-/
namespace HBT.Props
open HBT HBT.Model HBT.Spec HBT.GS

set_option linter.unusedSectionVars false
variable {K : Type} [Field K] [LinearOrder K] [IsStrictOrderedRing K] [FloorRing K]

theorem loadGadget_eq (env : GadgetEnv K) (fe : Bool) (P s isz : Nat) (hP : 0 < P) (hs : s = 4 ∨ s = 8)
    (hb : env.intBytes = 4 ∨ env.intBytes = 8)
    (hi : env.hasId = true → (isz = 4 ∨ isz = 8) ∧ isz ≤ env.intBytes ∧ env.idRankStyle = false)
    (f0 : RawFile) (rfs : List RawFile) (hn : (f0 :: rfs).length < 2 ^ 31) (R : Reading K)
    (hR : R = { real := if s = 4 then env.real4 else env.real8
                dbl := env.real8
                place := fun x => if env.periodic = true then positionModulus x env.boxSize else x
                velScale := env.sqrt (env.real8 f0.header.scaleFactor)
                hasId := env.hasId
                dmOnly := env.dmOnly
                thermal := env.thermal })
    (hall : ∀ f ∈ f0 :: rfs, f.Acceptable R env.idUnsigned env.intBytes s isz (f0 :: rfs).length ∧ f.Complete R)
    (hne : f0.all ≠ []) (hbox : env.real8 f0.header.boxSize = env.boxSize)
    (seg : Nat → Nat × Nat) (hseg : ∀ w, w < P → assignTasks w P (f0 :: rfs).length = .ok (seg w))
    (hadj : Adjacent seg P (f0 :: rfs).length) :
      loadGadget env P ((f0 :: rfs).map (gadgetBytes fe env.le isz env.hasId fun w => decide (env.real8 w = 0))) =
        .ok fun r => ((env.real8 f0.header.scaleFactor, env.real8 f0.header.omegaM0,
            env.real8 f0.header.omegaLambda0),
          (((R.files 0 (f0 :: rfs)).drop (seg r).1).take ((seg r).2 - (seg r).1)).flatten) := by
  have hR' : R = readingOf env s (env.real8 f0.header.scaleFactor) := hR
  obtain ⟨k, hk, e⟩ := loadGadgetHeader_ok (env := env) (fe := fe) (s := s) (isz := isz) hs
    (fun h => ⟨(hi h).1, (hi h).2.1⟩) f0 rfs hn (by rw [← hR']; exact fun f hf => (hall f hf).1) hne hbox
  unfold loadGadget
  rw [e, Outcome.bind_ok]
  have hnf : (headerOf env.real8 env.le f0).numFiles.toNat = (f0 :: rfs).length := by
    have := (hall f0 (by simp)).1.numFiles
    simpa [headerOf] using this
  apply allRanks_ok
  intro r
  simp only [hnf, hseg r r.isLt, Outcome.bind_ok]
  have hread := readGadgetFiles_ok (env := env) (R.files 0 (f0 :: rfs))
    ⟨headerOf env.real8 env.le f0, fe != env.le, s, k,
      firsts (readingOf env s (env.real8 f0.header.scaleFactor)) 0 (f0 :: rfs)⟩
    ((f0 :: rfs).map (gadgetBytes fe env.le isz env.hasId fun w => decide (env.real8 w = 0)))
    (by
      intro i x hx
      have hlt : i < (f0 :: rfs).length := by
        rw [← files_length R 0 (f0 :: rfs)]
        by_contra hge
        rw [List.getElem?_eq_none (by omega)] at hx
        simp at hx
      obtain ⟨first, h1, h2⟩ := files_get R 0 (f0 :: rfs) i _ (List.getElem?_eq_getElem hlt)
      rw [Nat.cast_zero] at h2
      rw [h2] at hx
      cases hx
      have hmem := hall _ (List.getElem_mem hlt)
      exact readGadgetFile_ok (env := env) (fe := fe) hs (fun h => ⟨(hi h).1, (hi h).2.1⟩) hb
        (fun h => (hi h).2.2) hn R hR' hmem.1 hmem.2 _ rfl rfl hk rfl _ i first
        (by rw [hR'] at h1; exact h1) (by rw [List.getElem?_map, List.getElem?_eq_getElem hlt]; rfl))
    ((seg r).2 - (seg r).1) (seg r).1
    (by
      rw [files_length]
      have h1 := hadj.1 r r.isLt
      have h2 : (seg r).2 ≤ (f0 :: rfs).length := by
        obtain ⟨hle, _, hnext, hend, _⟩ := hadj
        have mono : ∀ m, r.val + m < P → (seg r).2 ≤ (seg (r.val + m)).2 := by
          intro m
          induction m with
          | zero => intro _; exact Nat.le_refl _
          | succ m ih =>
            intro hm
            have a := ih (by omega)
            have b := hnext (r.val + m) (by omega)
            have d := hle (r.val + m + 1) (by omega)
            rw [← Nat.add_assoc]
            omega
        have := mono (P - 1 - r.val) (by omega)
        have he : r.val + (P - 1 - r.val) = P - 1 := by omega
        rw [he, hend hP] at this
        exact this
      omega)
  rw [hread, Outcome.bind_ok]
  rfl

/-- C57, the snapshot is loaded. Files written in byte order `fe` with reals of `s` bytes and ids of
`isz` bytes, read on `P` processes of a host of byte order `env.le`: process `r` gets the particles
of the files with numbers in the range `seg r`, in order, with positions placed in the box,
velocities multiplied by the square root of the scale factor, their ids (or numbers), masses, types
and energies as in the files; the ranges lie next to one another and cover all files. Every
process gets the cosmology of the first file. -/
theorem C57_load (env : GadgetEnv K) (fe : Bool) (P s isz : Nat) (hP : 0 < P) (hs : s = 4 ∨ s = 8)
    (hb : env.intBytes = 4 ∨ env.intBytes = 8)
    (hi : env.hasId = true → (isz = 4 ∨ isz = 8) ∧ isz ≤ env.intBytes ∧ env.idRankStyle = false)
    (f0 : RawFile) (rfs : List RawFile) (hn : (f0 :: rfs).length < 2 ^ 31) (R : Reading K)
    (hR : R = { real := if s = 4 then env.real4 else env.real8
                dbl := env.real8
                place := fun x => if env.periodic = true then positionModulus x env.boxSize else x
                velScale := env.sqrt (env.real8 f0.header.scaleFactor)
                hasId := env.hasId
                dmOnly := env.dmOnly
                thermal := env.thermal })
    (hall : ∀ f ∈ f0 :: rfs, f.Acceptable R env.idUnsigned env.intBytes s isz (f0 :: rfs).length ∧ f.Complete R)
    (hne : f0.all ≠ []) (hbox : env.real8 f0.header.boxSize = env.boxSize) :
    ∃ seg : Nat → Nat × Nat, Adjacent seg P (f0 :: rfs).length ∧
      loadGadget env P ((f0 :: rfs).map (gadgetBytes fe env.le isz env.hasId fun w => decide (env.real8 w = 0))) =
        .ok fun r => ((env.real8 f0.header.scaleFactor, env.real8 f0.header.omegaM0,
            env.real8 f0.header.omegaLambda0),
          (((R.files 0 (f0 :: rfs)).drop (seg r).1).take ((seg r).2 - (seg r).1)).flatten) := by
  obtain ⟨seg, hseg, hadj, _, _⟩ := C02_fair_split P (f0 :: rfs).length hP
  exact ⟨seg, hadj, loadGadget_eq env fe P s isz hP hs hb hi f0 rfs hn R hR hall hne hbox seg hseg hadj⟩

/-- C57, nothing is lost or read twice: the particles of all processes, one process after the
other, are the wanted particles of all files, in the order of the files. -/
theorem C57_complete (env : GadgetEnv K) (fe : Bool) (P s isz : Nat) (hP : 0 < P) (hs : s = 4 ∨ s = 8)
    (hb : env.intBytes = 4 ∨ env.intBytes = 8)
    (hi : env.hasId = true → (isz = 4 ∨ isz = 8) ∧ isz ≤ env.intBytes ∧ env.idRankStyle = false)
    (f0 : RawFile) (rfs : List RawFile) (hn : (f0 :: rfs).length < 2 ^ 31) (R : Reading K)
    (hR : R = { real := if s = 4 then env.real4 else env.real8
                dbl := env.real8
                place := fun x => if env.periodic = true then positionModulus x env.boxSize else x
                velScale := env.sqrt (env.real8 f0.header.scaleFactor)
                hasId := env.hasId
                dmOnly := env.dmOnly
                thermal := env.thermal })
    (hall : ∀ f ∈ f0 :: rfs, f.Acceptable R env.idUnsigned env.intBytes s isz (f0 :: rfs).length ∧ f.Complete R)
    (hne : f0.all ≠ []) (hbox : env.real8 f0.header.boxSize = env.boxSize) :
    ∃ out, loadGadget env P
        ((f0 :: rfs).map (gadgetBytes fe env.le isz env.hasId fun w => decide (env.real8 w = 0))) = .ok out ∧
      (List.ofFn fun r => (out r).2).flatten = (R.files 0 (f0 :: rfs)).flatten := by
  obtain ⟨seg, hadj, e⟩ := C57_load env fe P s isz hP hs hb hi f0 rfs hn R hR hall hne hbox
  refine ⟨_, e, ?_⟩
  obtain ⟨hle, h0, hnext, hend, _⟩ := hadj
  exact flatten_segments _ P (fun r => (seg r).1) (fun r => (seg r).2)
    (by
      intro r
      have h1 := hle r r.isLt
      have mono : ∀ m, r.val + m < P → (seg r).2 ≤ (seg (r.val + m)).2 := by
        intro m
        induction m with
        | zero => intro _; exact Nat.le_refl _
        | succ m ih =>
          intro hm
          have a := ih (by omega)
          have b := hnext (r.val + m) (by omega)
          have d := hle (r.val + m + 1) (by omega)
          rw [← Nat.add_assoc]
          omega
      have := mono (P - 1 - r.val) (by omega)
      have he : r.val + (P - 1 - r.val) = P - 1 := by omega
      rw [he, hend hP] at this
      rw [files_length]
      omega)
    (by intro r hr; simp only [hr]; exact h0 hP)
    (by intro r r' hr; simp only [hr]; exact (hnext r (by omega)).symm)
    (fun r => hle r r.isLt)
    (by intro r hr; rw [files_length]; have : r.val = P - 1 := by omega
        simp only [this]; exact hend hP) hP

/-- C57, the particles of one file: as many as the file has of the wanted types, in the order of the
file, numbered on from the files before. -/
theorem C57_file (R : Reading K) (n : Int) (fs : List RawFile) (f : RawFile) (gs : List RawFile) :
    R.files n (fs ++ f :: gs) = R.files n fs ++
      ((R.wanted f).mapIdx fun i tp => R.particle f.header tp.1 tp.2
        (n + ((fs.map fun g => (R.wanted g).length).sum : Nat) + i)) ::
      R.files (n + (((fs ++ [f]).map fun g => (R.wanted g).length).sum : Nat)) gs := by
  induction fs generalizing n with
  | nil => simp [Reading.files]
  | cons g fs ih =>
    simp only [List.cons_append, Reading.files, ih, List.map_cons, List.sum_cons]
    push_cast
    simp only [Int.add_assoc]

/-- C57, the byte order of the files does not matter. -/
theorem C57_byte_order (env : GadgetEnv K) (fe : Bool) (P s isz : Nat) (hP : 0 < P) (hs : s = 4 ∨ s = 8)
    (hb : env.intBytes = 4 ∨ env.intBytes = 8)
    (hi : env.hasId = true → (isz = 4 ∨ isz = 8) ∧ isz ≤ env.intBytes ∧ env.idRankStyle = false)
    (f0 : RawFile) (rfs : List RawFile) (hn : (f0 :: rfs).length < 2 ^ 31) (R : Reading K)
    (hR : R = { real := if s = 4 then env.real4 else env.real8
                dbl := env.real8
                place := fun x => if env.periodic = true then positionModulus x env.boxSize else x
                velScale := env.sqrt (env.real8 f0.header.scaleFactor)
                hasId := env.hasId
                dmOnly := env.dmOnly
                thermal := env.thermal })
    (hall : ∀ f ∈ f0 :: rfs, f.Acceptable R env.idUnsigned env.intBytes s isz (f0 :: rfs).length ∧ f.Complete R)
    (hne : f0.all ≠ []) (hbox : env.real8 f0.header.boxSize = env.boxSize) :
    loadGadget env P ((f0 :: rfs).map (gadgetBytes fe env.le isz env.hasId fun w => decide (env.real8 w = 0))) =
    loadGadget env P ((f0 :: rfs).map (gadgetBytes env.le env.le isz env.hasId fun w => decide (env.real8 w = 0))) := by
  obtain ⟨seg, hseg, hadj, _, _⟩ := C02_fair_split P (f0 :: rfs).length hP
  rw [loadGadget_eq env fe P s isz hP hs hb hi f0 rfs hn R hR hall hne hbox seg hseg hadj,
    loadGadget_eq env env.le P s isz hP hs hb hi f0 rfs hn R hR hall hne hbox seg hseg hadj]

/-! ## Files the program refuses -/

/-- C57, refused: a first file whose box size differs from the configured one. -/
theorem C57_wrong_box (env : GadgetEnv K) (fe : Bool) (P s isz n : Nat) (hs : s = 4 ∨ s = 8)
    (f0 : RawFile) (more : List (List Byte)) (hn : n < 2 ^ 31) (R : Reading K)
    (hall : f0.Acceptable R env.idUnsigned env.intBytes s isz n) (noMass : List Byte → Bool)
    (hbox : env.real8 f0.header.boxSize ≠ env.boxSize) :
    loadGadget env P (gadgetBytes fe env.le isz env.hasId noMass f0 :: more) = .abort := by
  obtain ⟨fl, e, _⟩ := header_ok' (env := env) (fe := fe) hs hn hall noMass _ rfl
  unfold loadGadget loadGadgetHeader
  have hopen : openGadget (gadgetBytes fe env.le isz env.hasId noMass f0 :: more) 0 =
    .ok (gadgetBytes fe env.le isz env.hasId noMass f0) := rfl
  rw [hopen, Outcome.bind_ok, e, Outcome.bind_ok]
  simp only
  rw [if_pos (by unfold headerOf; exact hbox)]
  rfl

/-- C57, refused: a file that does not begin with 256 in either byte order. -/
theorem C57_wrong_magic (env : GadgetEnv K) (P : Nat) (x : BitVec 32) (rest : List Byte)
    (more : List (List Byte)) (h1 : x ≠ 256#32) (h2 : bytes32 env.le x ≠ bytes32 (!env.le) 256#32) :
    loadGadget env P ((bytes32 env.le x ++ rest) :: more) = .abort := by
  have e := readBlockSize_ok env.le env.le x ⟨bytes32 env.le x ++ rest, 0⟩
    (by simp [List.take_left' (bytes32_length env.le x)])
  have hopen : openGadget ((bytes32 env.le x ++ rest) :: more) 0 = .ok (bytes32 env.le x ++ rest) := rfl
  unfold loadGadget loadGadgetHeader readGadgetHeader
  rw [bne_self_eq_false] at e
  rw [hopen, Outcome.bind_ok, e, Outcome.bind_ok]
  simp only
  have hend : endiannessCheck x.toInt = .abort := by
    unfold endiannessCheck
    have a : x.toInt ≠ 256 := by
      intro h
      apply h1
      apply BitVec.eq_of_toInt_eq
      rw [h]; decide
    have b : x.toInt ≠ (swap4 256#32).toInt := by
      intro h
      apply h2
      have : x = swap4 256#32 := BitVec.eq_of_toInt_eq h
      rw [this]
      cases env.le <;> decide
    rw [if_neg a, if_neg b]
  rw [hend]
  rfl

/-- C57, refused: fewer files than the first header says. -/
theorem C57_missing_file (env : GadgetEnv K) (fe : Bool) (P s isz n : Nat) (hs : s = 4 ∨ s = 8)
    (hi : env.hasId = true → (isz = 4 ∨ isz = 8) ∧ isz ≤ env.intBytes)
    (f0 : RawFile) (rfs : List RawFile) (hn : n < 2 ^ 31) (R : Reading K)
    (hall : ∀ f ∈ f0 :: rfs, f.Acceptable R env.idUnsigned env.intBytes s isz n)
    (hne : f0.all ≠ []) (hbox : env.real8 f0.header.boxSize = env.boxSize)
    (hmiss : (f0 :: rfs).length < n) (noMass : List Byte → Bool) :
    loadGadget env P ((f0 :: rfs).map (gadgetBytes fe env.le isz env.hasId noMass)) = .abort := by
  obtain ⟨k, _, e⟩ := loadGadgetHeader_front (fe := fe) hs hi f0
    (rfs.map (gadgetBytes fe env.le isz env.hasId noMass)) hn (hall f0 (by simp)) hne hbox noMass
  have hmissing := offsets_missing (fe := fe) hs hn (f0 :: rfs) hall noMass [] (f0 :: rfs) rfl n 0 hmiss
  rw [List.map_cons] at hmissing ⊢
  rw [List.length_nil] at hmissing
  unfold loadGadget
  rw [e, hmissing]
  rfl

/-- C57, finding: if the first file holds no particles, the program divides by zero. -/
theorem C57_empty_first_finding (env : GadgetEnv K) (fe : Bool) (P s isz n : Nat) (hs : s = 4 ∨ s = 8)
    (f0 : RawFile) (more : List (List Byte)) (hn : n < 2 ^ 31) (R : Reading K)
    (hall : f0.Acceptable R env.idUnsigned env.intBytes s isz n) (noMass : List Byte → Bool)
    (hbox : env.real8 f0.header.boxSize = env.boxSize) (hempty : f0.all = []) :
    loadGadget env P (gadgetBytes fe env.le isz env.hasId noMass f0 :: more) = .ub := by
  obtain ⟨fl, e, hat⟩ := header_ok' (env := env) (fe := fe) hs hn hall noMass _ rfl
  unfold bodyBytes at hat
  rw [hempty] at hat
  obtain ⟨fl1, e1, hat⟩ := skip_record fe env.le _ (by simp) _ _ _ hat
  unfold loadGadget loadGadgetHeader
  have hopen : openGadget (gadgetBytes fe env.le isz env.hasId noMass f0 :: more) 0 =
    .ok (gadgetBytes fe env.le isz env.hasId noMass f0) := rfl
  rw [hopen, Outcome.bind_ok, e, Outcome.bind_ok]
  simp only
  rw [if_neg (by unfold headerOf; simpa using hbox), partCounts_ok, Outcome.bind_ok, sumTypes_all, hempty, e1,
    Outcome.bind_ok]
  simp

/-- C57, finding: four-byte ids from 2^31 on, read as unsigned into a program with four-byte
integers, come out negative; the largest one becomes the null id. -/
theorem C57_unsigned_finding (env : GadgetEnv K) (hb : env.intBytes = 4) (hu : env.idUnsigned = true) (x : Int)
    (h1 : 2 ^ 31 ≤ x) (h2 : x < 2 ^ 32) :
    memberId env 4 (intBytes env.le 4 x) = x - 2 ^ 32 ∧
      (x = 2 ^ 32 - 1 → memberId env 4 (intBytes env.le 4 x) = nullId) := by
  have e : memberId env 4 (intBytes env.le 4 x) = x - 2 ^ 32 := by
    unfold memberId
    rw [loadNat_intBytes, hb]
    have e : x % ((256 ^ 4 : Nat) : Int) = x := by
      apply Int.emod_eq_of_lt <;> omega
    simp only
    rw [e, if_pos ⟨trivial, hu⟩]
    have : x.bmod (256 ^ 4) = (x - 2 ^ 32).bmod (256 ^ 4) := by
      have h : x = (x - 2 ^ 32) + ((256 ^ 4 : Nat) : Int) := by norm_num
      conv_lhs => rw [h]
      exact Int.add_bmod_right ..
    rw [this]
    apply bmod_small <;> norm_num <;> omega
  refine ⟨e, fun hx => ?_⟩
  rw [e, hx]
  rfl

/-- C57, finding: a program with internal energies reads past the end of a file without gas that
ends with its mass record (or has none). -/
theorem C57_no_gas_finding (env : GadgetEnv K) (fe : Bool) (s isz n : Nat) (hs : s = 4 ∨ s = 8)
    (hi : env.hasId = true → (isz = 4 ∨ isz = 8) ∧ isz ≤ env.intBytes)
    (hb : env.intBytes = 4 ∨ env.intBytes = 8) (hstyle : env.hasId = true → env.idRankStyle = false)
    (hn : n < 2 ^ 31) (f : RawFile) (info : GadgetInfo K)
    (hf : f.Acceptable (readingOf env s info.header.scaleFactor) env.idUnsigned env.intBytes s isz n)
    (htot : ∀ t, f.parts t ≠ [] → f.header.totals t % 2 ^ 32 ≠ 0)
    (hdm : env.dmOnly = false) (hth : env.thermal = true) (hgas : f.parts 0 = []) (hrest : f.rest = [])
    (hsw : info.swap = (fe != env.le)) (hrs : info.realSize = s)
    (hisz : env.hasId = true → info.intSize = isz)
    (files : List (List Byte)) (iFile first : Nat) (hoff : info.offsets[iFile]? = some first)
    (hfile : files[iFile]? = some (gadgetBytes fe env.le isz env.hasId (fun w => decide (env.real8 w = 0)) f)) :
    readGadgetFile env info files iFile = .ub := by
  obtain ⟨R, hR⟩ : ∃ R, R = readingOf env s info.header.scaleFactor := ⟨_, rfl⟩
  have hRdm : R.dmOnly = env.dmOnly := by rw [hR]; rfl
  have hRdbl : R.dbl = env.real8 := by rw [hR]; rfl
  have hRreal : R.real = blockReal env s := by rw [hR]; rfl
  rw [← hR] at hf
  have hsmall := hf.small
  obtain ⟨fl3, e, hat⟩ := readGadgetFile_front hs hi hb hstyle hn R hR hf info hsw hrs hisz rfl files iFile
    first hoff _ rfl hfile
  obtain ⟨fl4, e4, hat⟩ := readMass_ok env R fe s f hRreal hRdbl hRdm
    (fun t p hp => (hf.parts t p hp).2.2.1) htot
    (by
      have := massive_le f (fun w => decide (env.real8 w = 0))
      have hle := Nat.mul_le_mul_right s this
      rcases hs with rfl | rfl <;> omega)
    (by rw [hdm]; simp) (if R.dmOnly then (f.parts 0).length else 0)
    (by intro h; rw [hRdm, h]; rfl) _ _ fl3 hat
  obtain ⟨pre, hc, hfl⟩ := hat hdm
  rw [hgas, hrest] at hc
  simp only [List.isEmpty_nil, if_true, List.append_nil] at hc
  rw [e, e4, Outcome.bind_ok]
  simp only
  unfold readEnergy fortranRead readBlockSize
  rw [if_pos ⟨hdm, hth⟩]
  have hr : (fl4.read 4).1 = [] := by
    rw [hfl]
    simp [File.read, hc]
  simp only [hr]
  rfl

/-- C57, finding: if the total of each type without a common mass is a multiple of 2^32 in the header
(for instance exactly 2^32 particles of one type), the mass record is not read and these
particles get mass zero, whatever the file says. -/
theorem C57_totals_finding (env : GadgetEnv K) (fe : Bool) (s isz n : Nat) (hs : s = 4 ∨ s = 8)
    (hi : env.hasId = true → (isz = 4 ∨ isz = 8) ∧ isz ≤ env.intBytes)
    (hb : env.intBytes = 4 ∨ env.intBytes = 8) (hstyle : env.hasId = true → env.idRankStyle = false)
    (hn : n < 2 ^ 31) (f : RawFile) (info : GadgetInfo K)
    (hf : f.Acceptable (readingOf env s info.header.scaleFactor) env.idUnsigned env.intBytes s isz n)
    (hdm : env.dmOnly = false) (hth : env.thermal = false)
    (htot : ∀ t, env.real8 (f.header.masses t) = 0 → f.header.totals t % 2 ^ 32 = 0)
    (hsw : info.swap = (fe != env.le)) (hrs : info.realSize = s)
    (hisz : env.hasId = true → info.intSize = isz)
    (files : List (List Byte)) (iFile first : Nat) (hoff : info.offsets[iFile]? = some first)
    (hfile : files[iFile]? = some (gadgetBytes fe env.le isz env.hasId (fun w => decide (env.real8 w = 0)) f)) :
    ∃ ps, readGadgetFile env info files iFile = .ok ps ∧ ps.length = f.all.length ∧
      ∀ p ∈ ps, ∃ t : Fin 6, p.type = some t.val ∧ p.mass = env.real8 (f.header.masses t) := by
  obtain ⟨R, hR⟩ : ∃ R, R = readingOf env s info.header.scaleFactor := ⟨_, rfl⟩
  have hRdm : R.dmOnly = false := by rw [hR]; exact hdm
  have hRth : R.thermal = env.thermal := by rw [hR]; rfl
  rw [← hR] at hf
  obtain ⟨fl3, e, _⟩ := readGadgetFile_front hs hi hb hstyle hn R hR hf info hsw hrs hisz rfl files iFile
    first hoff _ rfl hfile
  have habs : ∀ t, massDataPresent (headerOf env.real8 env.le f) t = false := by
    intro t
    unfold massDataPresent headerOf
    by_cases h0 : env.real8 (f.header.masses t) = 0
    · simp only [ne_eq, htot t h0]
      simp
    · simp [h0]
  have hmass : readMass env s (headerOf env.real8 env.le f) (fun t => (f.parts t).length)
      (R.wanted f).length (if R.dmOnly then (f.parts 0).length else 0) fl3 (fe != env.le) =
      .ok ((R.wanted f).map (fun tp => env.real8 (f.header.masses tp.1)), fl3) := by
    unfold readMass
    rw [hdm]
    have h0 : sumTypes (fun t => if massDataPresent (headerOf env.real8 env.le f) t = true
        then (f.parts t).length else 0) = 0 := by
      simp [sumTypes, habs]
    simp only [Bool.false_eq_true, if_false, h0, ne_eq, not_true_eq_false, Outcome.bind_ok]
    rw [spreadMass_absent _ _ _ habs, Outcome.bind_ok]
    congr 2
    unfold Reading.wanted
    simp only [hRdm, Bool.false_eq_true, false_and, if_false]
    rw [List.map_flatMap]
    congr 1
    funext t
    rw [List.map_map]
    simp [Function.comp_def, List.map_const', headerOf]
  rw [e, hmass, Outcome.bind_ok]
  simp only
  rw [readEnergy_other env R (by rw [hRdm, hdm]) hRth (by rw [hth]; simp) s f _ fl3 _, Outcome.bind_ok]
  simp only
  rw [assemble_map]
  refine ⟨_, rfl, ?_, ?_⟩
  · rw [List.length_mapIdx, wanted_length, hRdm]
    rfl
  · intro p hp
    rw [List.mem_mapIdx] at hp
    obtain ⟨i, hi, rfl⟩ := hp
    refine ⟨((R.wanted f)[i]).1, ?_, rfl⟩
    simp [hRdm]

end HBT.Props
