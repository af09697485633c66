import Verif.Props.Config
/-!
# C45: dumping the configuration and reading it back
-/
namespace HBT.Props
open HBT HBT.Model HBT.Spec
variable {R : Type}

/-! ## The lines of the dump -/

theorem visible_clean {w : List Char} (h : ∀ c ∈ w, c ≠ '#' ∧ c ≠ '[') : visible w = w := by
  unfold visible
  rw [List.takeWhile_eq_self_iff]
  intro c hc
  have := h c hc
  simp [this.1, this.2]

theorem dumpPar_words {n t : List Char} (hn : CleanWord n) (ht : CleanWord t) : words (visible (dumpPar n t)) = [n, t] := by
  rw [visible_clean]
  · rw [dumpPar, words_word (fun c hc => (hn.2 c hc).1) hn.1 _ (by intro c hc; cases hc; rfl), words_blank rfl, words_blank rfl]
    have := words_word (fun c hc => (ht.2 c hc).1) ht.1 [] (by intro c hc; cases hc)
    rw [List.append_nil] at this
    rw [this]
    rfl
  · intro c hc
    rw [dumpPar, List.mem_append, List.mem_cons, List.mem_cons] at hc
    rcases hc with hc | rfl | rfl | hc
    · exact (hn.2 c hc).2
    · decide
    · decide
    · exact (ht.2 c hc).2

theorem hex_clean {c : Char} (h : hexVal c < 16) : isBlank c = false ∧ c ≠ '#' ∧ c ≠ '[' := by
  refine ⟨?_, ?_, ?_⟩
  · cases hb : isBlank c with
    | false => rfl
    | true => rw [hexVal_blank hb] at h; exact absurd h (by decide)
  · rintro rfl; exact absurd h (by decide)
  · rintro rfl; exact absurd h (by decide)

theorem signed_clean {b : Nat} (hb : 1 < b) (hb' : b ≤ 16) (v : Int) : CleanWord (signed b v) := by
  have h : ∀ c ∈ Nat.toDigits b v.natAbs, isBlank c = false ∧ c ≠ '#' ∧ c ≠ '[' :=
    fun c hc => hex_clean (lt_of_lt_of_le (toDigits_hex hb hb' _ c hc) hb')
  unfold signed
  split_ifs
  · refine ⟨by simp, ?_⟩
    intro c hc
    rcases List.mem_cons.1 hc with rfl | hc
    · decide
    · exact h c hc
  · exact ⟨Nat.toDigits_ne_nil, h⟩

theorem printInt_clean (v : Int) : CleanWord (printInt v) := by
  rw [printInt_eq, decimal_eq]
  exact signed_clean (by decide) (by decide) v

theorem printBool_clean (b : Bool) : CleanWord (printBool b) := by
  cases b <;> (unfold CleanWord; decide)

theorem words_list (n : List Char) (hn : CleanWord n) (ids : List Int) :
    words (visible (n ++ ids.flatMap (fun i => ' ' :: printInt i))) = n :: ids.map decimal := by
  have hE : ∀ ids : List Int, Ends (ids.flatMap (fun i => ' ' :: printInt i)) := by
    intro ids
    cases ids with
    | nil => intro c hc; cases hc
    | cons i ids => intro c hc; cases hc; rfl
  rw [visible_clean]
  · rw [words_word (fun c hc => (hn.2 c hc).1) hn.1 _ (hE ids)]
    congr 1
    induction ids with
    | nil => rfl
    | cons i ids ih =>
      have hc := printInt_clean i
      rw [List.flatMap_cons, List.cons_append, words_blank rfl, words_word (fun c hh => (hc.2 c hh).1) hc.1 _ (hE ids), ih,
        printInt_eq]
      rfl
  · intro c hc
    rcases List.mem_append.1 hc with hc | hc
    · exact (hn.2 c hc).2
    · obtain ⟨i, _, hi⟩ := List.mem_flatMap.1 hc
      rcases List.mem_cons.1 hi with rfl | hi
      · decide
      · exact ((printInt_clean i).2 c hi).2

/-- A configuration that can be written and read back: words without blanks and comment signs, numbers in
range, a mask that is not negative, as many ids as snapshots, no hashing of ranks; the reals as printed are read back. -/
structure Dumpable (wide : Nat) (rd : List Char → R → R) (pr : R → List Char) (c : Params R) : Prop where
  word : ∀ p ∈ wordParams (R := R), CleanWord (p.2 c)
  int : ∀ p ∈ intParams (R := R) wide, InRange p.2.1 (p.2.2 c)
  real : ∀ p ∈ realParams (R := R), CleanWord (pr (p.2 c)) ∧ ∀ t old, words t = [pr (p.2 c)] → rd t old = p.2 c
  mask : 0 ≤ c.groupParticleIdMask ∧ InRange 64 c.groupParticleIdMask
  ids : ∀ v ∈ c.snapshotIdList, InRange 32 v
  size : c.snapshotIdList = [] ∨ (c.snapshotIdList.length : Int) = c.maxSnapshotIndex + 1
  hash : c.particleIdRankStyle = true → c.particleIdNeedHash = false

/-- The words of the lines of the dump. -/
def table (pr : R → List Char) (c : Params R) : List (List (List Char)) :=
  [[],
   ["SnapshotPath".toList, c.snapshotPath],
   ["HaloPath".toList, c.haloPath],
   ["SubhaloPath".toList, c.subhaloPath],
   ["SnapshotFileBase".toList, c.snapshotFileBase],
   ["MaxSnapshotIndex".toList, printInt c.maxSnapshotIndex],
   ["BoxSize".toList, pr c.boxSize],
   ["SofteningHalo".toList, pr c.softeningHalo],
   ["SnapshotFormat".toList, c.snapshotFormat],
   ["GroupFileFormat".toList, c.groupFileFormat],
   ["MaxConcurrentIO".toList, printInt c.maxConcurrentIO],
   ["MinSnapshotIndex".toList, printInt c.minSnapshotIndex],
   ["MinNumPartOfSub".toList, printInt c.minNumPartOfSub]] ++
  (if c.groupParticleIdMask ≠ 0 then [["GroupParticleIdMask".toList, signed 16 c.groupParticleIdMask]] else []) ++
  [["MassInMsunh".toList, pr c.massInMsunh],
   ["LengthInMpch".toList, pr c.lengthInMpch],
   ["VelInKmS".toList, pr c.velInKmS],
   ["PeriodicBoundaryOn".toList, printBool c.periodicBoundaryOn],
   ["SnapshotHasIdBlock".toList, printBool c.snapshotHasIdBlock],
   ["ParticleIdRankStyle".toList, printBool c.particleIdRankStyle],
   ["ParticleIdNeedHash".toList, printBool c.particleIdNeedHash],
   ["SnapshotIdUnsigned".toList, printBool c.snapshotIdUnsigned],
   ["SaveSubParticleProperties".toList, printBool c.saveSubParticleProperties],
   ["MergeTrappedSubhalos".toList, printBool c.mergeTrappedSubhalos]] ++
  (if c.snapshotIdList.length ≠ 0 then ["SnapshotIdList".toList :: c.snapshotIdList.map decimal] else []) ++
  (if c.snapshotNameList.length ≠ 0 then [[]] else []) ++
  [["MajorProgenitorMassRatio".toList, pr c.majorProgenitorMassRatio],
   ["BoundMassPrecision".toList, pr c.boundMassPrecision],
   ["SourceSubRelaxFactor".toList, pr c.sourceSubRelaxFactor],
   ["SubCoreSizeFactor".toList, pr c.subCoreSizeFactor],
   ["SubCoreSizeMin".toList, printInt c.subCoreSizeMin],
   ["TreeAllocFactor".toList, pr c.treeAllocFactor],
   ["TreeNodeOpenAngle".toList, pr c.treeNodeOpenAngle],
   ["TreeMinNumOfCells".toList, printInt c.treeMinNumOfCells],
   ["MaxSampleSizeOfPotentialEstimate".toList, printInt c.maxSampleSizeOfPotentialEstimate],
   ["RefineMostboundParticle".toList, printBool c.refineMostboundParticle],
   []]

theorem known_clean : ∀ n ∈ knownNames, CleanWord n := by
  unfold CleanWord
  decide +kernel

variable {wide : Nat} {rd : List Char → R → R} {pr : R → List Char}

/-- Lines and their words correspond; lines without words are comments. -/
def LineOf (l : List Char) (ws : List (List Char)) : Prop :=
  words (visible l) = ws ∧ (visible l = [] ∨ ∃ n ∈ knownNames, ws.head? = some n)

theorem lineOf_par {n t : List Char} (hn : n ∈ knownNames) (ht : CleanWord t) : LineOf (dumpPar n t) [n, t] :=
  ⟨dumpPar_words (known_clean n hn) ht, .inr ⟨n, hn, rfl⟩⟩

theorem lineOf_comment (l : List Char) : LineOf ('#' :: l) [] := ⟨rfl, .inl rfl⟩

theorem printHex_signed {v : Int} (h : 0 ≤ v) : printHex v = signed 16 v := by
  unfold printHex signed
  rw [if_neg (by omega), if_neg (by omega)]
  congr 1
  omega

theorem dump_table {c : Params R} (hd : Dumpable wide rd pr c) (version : List Char) :
    List.Forall₂ LineOf (dumpParameters pr version c) (table pr c) := by
  have hw : ∀ p ∈ wordParams (R := R), CleanWord (p.2 c) := hd.word
  have hr : ∀ p ∈ realParams (R := R), CleanWord (pr (p.2 c)) := fun p hp => (hd.real p hp).1
  simp only [wordParams, List.forall_mem_cons, List.not_mem_nil, false_imp_iff, implies_true, and_true] at hw
  simp only [realParams, List.forall_mem_cons, List.not_mem_nil, false_imp_iff, implies_true, and_true] at hr
  unfold dumpParameters table
  refine List.rel_append (List.rel_append (List.rel_append (List.rel_append (List.rel_append ?_ ?_) ?_) ?_) ?_) ?_
  · repeat' refine List.Forall₂.cons ?_ ?_
    all_goals try exact List.Forall₂.nil
    · exact ⟨rfl, .inl rfl⟩
    all_goals refine lineOf_par (by decide +kernel) ?_
    all_goals first | exact printInt_clean _ | exact hw.1 | exact hw.2.1 | exact hw.2.2.1 | exact hw.2.2.2.1 | exact hw.2.2.2.2.1 |
      exact hw.2.2.2.2.2 | exact hr.1 | exact hr.2.1
  · split_ifs
    · refine .cons ⟨?_, .inr ⟨_, by decide +kernel, rfl⟩⟩ .nil
      have h1 := known_clean "GroupParticleIdMask".toList (by decide +kernel)
      have h2 := signed_clean (b := 16) (by decide) (by decide) c.groupParticleIdMask
      rw [printHex_signed hd.mask.1, visible_clean]
      · rw [words_word (fun c hc => (h1.2 c hc).1) h1.1 _ (by intro c hc; cases hc; rfl), words_blank rfl]
        have := words_word (fun c hc => (h2.2 c hc).1) h2.1 [] (by intro c hc; cases hc)
        rw [List.append_nil] at this
        rw [this]
        rfl
      · intro x hx
        rcases List.mem_append.1 hx with hx | hx
        · exact (h1.2 x hx).2
        · rcases List.mem_cons.1 hx with rfl | hx
          · decide
          · exact (h2.2 x hx).2
    · exact .nil
  · repeat' refine List.Forall₂.cons ?_ ?_
    all_goals try exact List.Forall₂.nil
    all_goals refine lineOf_par (by decide +kernel) ?_
    all_goals first | exact printBool_clean _ | exact hr.2.2.1 | exact hr.2.2.2.1 | exact hr.2.2.2.2.1
  · split_ifs
    · exact .cons ⟨words_list _ (known_clean _ (by decide +kernel)) _, .inr ⟨_, by decide +kernel, rfl⟩⟩ .nil
    · exact .nil
  · split_ifs
    · exact .cons ⟨rfl, .inl rfl⟩ .nil
    · exact .nil
  · repeat' refine List.Forall₂.cons ?_ ?_
    all_goals try exact List.Forall₂.nil
    all_goals first | exact ⟨rfl, .inl rfl⟩ | refine lineOf_par (by decide +kernel) ?_
    all_goals first | exact printBool_clean _ | exact printInt_clean _ | exact hr.2.2.2.2.2.1 | exact hr.2.2.2.2.2.2.1 |
      exact hr.2.2.2.2.2.2.2.1 | exact hr.2.2.2.2.2.2.2.2.1 | exact hr.2.2.2.2.2.2.2.2.2.1 | exact hr.2.2.2.2.2.2.2.2.2.2

/-- A configuration with a mask and a list of ids. -/
def withMask (m : Int) (ids : List Int) : Params Unit :=
  ⟨[], [], [], [], 0, (), (), [], [], [], 0, 0, 0, m, (), (), (), true, true, true, true, true, true,
    true, ids, [], (), (), (), (), 0, (), (), 0, 0, true, (), (), (), (), true, (), ()⟩

/-- The names in the dump. -/
theorem table_sub (c : Params R) {m : Int} {ids : List Int} (hm : c.groupParticleIdMask ≠ 0 → m ≠ 0)
    (hi : c.snapshotIdList.length ≠ 0 → ids.length ≠ 0) :
    ((table pr c).filterMap List.head?).Sublist ((table (fun _ => []) (withMask m ids)).filterMap List.head?) := by
  unfold table
  simp only [List.filterMap_append]
  refine .append (.append (.append (.append (.append (List.Sublist.refl _) ?_) (List.Sublist.refl _)) ?_) ?_) (List.Sublist.refl _)
  · by_cases h : c.groupParticleIdMask ≠ 0
    · rw [if_pos h, if_pos (show (withMask m ids).groupParticleIdMask ≠ 0 from hm h)]; exact List.Sublist.refl _
    · rw [if_neg h]; exact List.nil_sublist _
  · by_cases h : c.snapshotIdList.length ≠ 0
    · rw [if_pos h, if_pos (show (withMask m ids).snapshotIdList.length ≠ 0 from hi h)]; exact List.Sublist.refl _
    · rw [if_neg h]; exact List.nil_sublist _
  · by_cases h : c.snapshotNameList.length ≠ 0
    · rw [if_pos h]; exact List.Sublist.refl _
    · rw [if_neg h]; exact List.nil_sublist _

/-- The names in the dump are all different. -/
theorem table_names (c : Params R) : ((table pr c).filterMap List.head?).Nodup :=
  (table_sub c (m := 1) (ids := [1]) (fun _ => by decide) (fun _ => by decide)).nodup (by decide +kernel)

theorem heads_unique {n : List Char} {W : List (List (List Char))} (h : (W.filterMap List.head?).Nodup) {ws ws' : List (List Char)}
    (h1 : n :: ws ∈ W) (h2 : n :: ws' ∈ W) : ws = ws' := by
  induction W with
  | nil => cases h1
  | cons w W ih =>
    have hsub : (W.filterMap List.head?).Nodup := by
      refine (List.Sublist.filterMap List.head? (List.sublist_cons_self w W)).nodup h
    rcases List.mem_cons.1 h1 with rfl | h1' <;> rcases List.mem_cons.1 h2 with h2' | h2'
    · exact (List.cons.inj h2').2.symm
    · rw [List.filterMap_cons_some List.head?_cons, List.nodup_cons] at h
      exact absurd (List.mem_filterMap.2 ⟨_, h2', List.head?_cons⟩) h.1
    · subst h2'
      rw [List.filterMap_cons_some List.head?_cons, List.nodup_cons] at h
      exact absurd (List.mem_filterMap.2 ⟨_, h1', List.head?_cons⟩) h.1
    · exact ih hsub h1' h2'

theorem heads_eq {D : List (List Char)} {W : List (List (List Char))} (h : List.Forall₂ LineOf D W) :
    D.filterMap firstWord = W.filterMap List.head? := by
  induction h with
  | nil => rfl
  | cons h _ ih =>
    rw [List.filterMap_cons, List.filterMap_cons, ih, firstWord, h.1]

/-- The line of a parameter. -/
theorem dump_line {c : Params R} (hd : Dumpable wide rd pr c) (version : List Char) {n : List Char} {ws : List (List Char)}
    (h : n :: ws ∈ table pr c) : ∃ a l b, dumpParameters pr version c = a ++ l :: b ∧ words (visible l) = n :: ws ∧
      (∀ l' ∈ b, firstWord l' ≠ some n) ∧ ∀ l' ∈ a, firstWord l' ≠ some n := by
  have ht := dump_table hd version
  have hex : ∃ l ∈ dumpParameters pr version c, firstWord l = some n := by
    obtain ⟨i, hi⟩ := List.mem_iff_getElem?.1 h
    obtain ⟨hlt, he⟩ := List.getElem?_eq_some_iff.1 hi
    have hlt' : i < (dumpParameters pr version c).length := by rw [ht.length_eq]; exact hlt
    have := (List.forall₂_iff_get.1 ht).2 i hlt' hlt
    simp only [List.get_eq_getElem, he] at this
    exact ⟨_, List.getElem_mem hlt', by rw [firstWord, this.1]; rfl⟩
  obtain ⟨a, l, b, ws', h1, h2, h3⟩ := last_line hex
  refine ⟨a, l, b, h1, ?_, h3, ?_⟩
  swap
  · intro l' hl' hf
    have hnd : ((dumpParameters pr version c).filterMap firstWord).Nodup := by
      rw [heads_eq ht]
      exact table_names c
    rw [h1, List.filterMap_append, List.filterMap_cons_some (b := n) (by rw [firstWord, h2]; rfl)] at hnd
    exact (List.nodup_append.1 hnd).2.2 n (List.mem_filterMap.2 ⟨l', hl', hf⟩) n (by simp) rfl
  have hmem : n :: ws' ∈ table pr c := by
    have hl : l ∈ dumpParameters pr version c := by rw [h1]; simp
    obtain ⟨i, hlt, rfl⟩ := List.mem_iff_getElem.1 hl
    have hlt' : i < (table pr c).length := by rw [← ht.length_eq]; exact hlt
    have := (List.forall₂_iff_get.1 ht).2 i hlt hlt'
    simp only [List.get_eq_getElem] at this
    rw [← h2, this.1]
    exact List.getElem_mem hlt'
  rw [h2, heads_unique (table_names c) hmem h]

theorem dump_no_line {c : Params R} (hd : Dumpable wide rd pr c) (version : List Char) {n : List Char}
    (h : ∀ ws, n :: ws ∉ table pr c) : ∀ l ∈ dumpParameters pr version c, firstWord l ≠ some n := by
  intro l hl hf
  have ht := dump_table hd version
  obtain ⟨i, hlt, rfl⟩ := List.mem_iff_getElem.1 hl
  have hlt' : i < (table pr c).length := by rw [← ht.length_eq]; exact hlt
  have := (List.forall₂_iff_get.1 ht).2 i hlt hlt'
  simp only [List.get_eq_getElem] at this
  rw [firstWord, this.1] at hf
  cases hw : (table pr c)[i] with
  | nil => rw [hw] at hf; cases hf
  | cons x ws =>
    rw [hw] at hf
    cases hf
    exact h ws (hw ▸ List.getElem_mem hlt')


/-- Finds a line in the table. -/
macro "in_table" : tactic => `(tactic| (
  try dsimp only
  unfold table
  simp only [List.append_assoc, List.cons_append, List.nil_append]
  repeat first
    | with_reducible exact List.mem_cons_self
    | apply List.mem_cons_of_mem
    | apply List.mem_append_right))

theorem table_int (c : Params R) : ∀ p ∈ intParams (R := R) wide, p.1 :: [printInt (p.2.2 c)] ∈ table pr c := by
  intro p hp
  simp only [intParams, List.mem_cons, List.not_mem_nil, or_false] at hp
  rcases hp with rfl | rfl | rfl | rfl | rfl | rfl | rfl <;>
    in_table

theorem table_word (c : Params R) : ∀ p ∈ wordParams (R := R), p.1 :: [p.2 c] ∈ table pr c := by
  intro p hp
  simp only [wordParams, List.mem_cons, List.not_mem_nil, or_false] at hp
  rcases hp with rfl | rfl | rfl | rfl | rfl | rfl <;>
    in_table

theorem table_switch (c : Params R) : ∀ p ∈ switchParams (R := R), p.1 :: [printBool (p.2 c)] ∈ table pr c := by
  intro p hp
  simp only [switchParams, List.mem_cons, List.not_mem_nil, or_false] at hp
  rcases hp with rfl | rfl | rfl | rfl | rfl | rfl | rfl <;>
    in_table

theorem table_real (c : Params R) : ∀ p ∈ realParams (R := R), p.1 :: [pr (p.2 c)] ∈ table pr c := by
  intro p hp
  simp only [realParams, List.mem_cons, List.not_mem_nil, or_false] at hp
  rcases hp with rfl | rfl | rfl | rfl | rfl | rfl | rfl | rfl | rfl | rfl | rfl <;>
    in_table

theorem table_hash (c : Params R) : "ParticleIdNeedHash".toList :: [printBool c.particleIdNeedHash] ∈ table pr c := by
  in_table

theorem table_compulsory (c : Params R) : ∀ n ∈ compulsory, ∃ ws, n :: ws ∈ table pr c := by
  intro n hn
  simp only [compulsory, List.mem_cons, List.not_mem_nil, or_false] at hn
  rcases hn with rfl | rfl | rfl | rfl | rfl | rfl | rfl
  · exact ⟨_, table_word c _ (List.mem_of_getElem? (i := 0) rfl)⟩
  · exact ⟨_, table_word c _ (List.mem_of_getElem? (i := 1) rfl)⟩
  · exact ⟨_, table_word c _ (List.mem_of_getElem? (i := 2) rfl)⟩
  · exact ⟨_, table_word c _ (List.mem_of_getElem? (i := 3) rfl)⟩
  · exact ⟨_, table_int (wide := 32) c _ (List.mem_of_getElem? (i := 0) rfl)⟩
  · exact ⟨_, table_real c _ (List.mem_of_getElem? (i := 0) rfl)⟩
  · exact ⟨_, table_real c _ (List.mem_of_getElem? (i := 1) rfl)⟩

theorem table_mask (c : Params R) : if c.groupParticleIdMask = 0 then ∀ ws, "GroupParticleIdMask".toList :: ws ∉ table pr c
    else "GroupParticleIdMask".toList :: [signed 16 c.groupParticleIdMask] ∈ table pr c := by
  split_ifs with h
  · intro ws hw
    have := (table_sub (pr := pr) c (m := 0) (ids := [1]) (fun hh => absurd h hh) (fun _ => by decide)).subset
      (List.mem_filterMap.2 ⟨_, hw, List.head?_cons⟩)
    exact absurd this (by decide +kernel)
  · unfold table
    rw [if_pos h]
    simp only [List.append_assoc]
    exact List.mem_append_right _ (List.mem_append_left _ List.mem_cons_self)

theorem table_ids (c : Params R) : if c.snapshotIdList = [] then ∀ ws, "SnapshotIdList".toList :: ws ∉ table pr c
    else "SnapshotIdList".toList :: c.snapshotIdList.map decimal ∈ table pr c := by
  split_ifs with h
  · intro ws hw
    have := (table_sub (pr := pr) c (m := 1) (ids := []) (fun _ => by decide) (fun hh => absurd (by rw [h]; rfl) hh)).subset
      (List.mem_filterMap.2 ⟨_, hw, List.head?_cons⟩)
    exact absurd this (by decide +kernel)
  · unfold table
    rw [if_pos (show c.snapshotIdList.length ≠ 0 from fun hh => h (List.length_eq_zero_iff.1 hh))]
    simp only [List.append_assoc]
    exact List.mem_append_right _ (List.mem_append_right _ (List.mem_append_right _ (List.mem_append_left _ List.mem_cons_self)))

/-! ## C45 -/

/-- Reading a dump gives back every parameter. -/
theorem C45_dump_round_trip [Field R] {c : Params R} (hd : Dumpable wide rd pr c) (version : List Char) (merge : Bool) (u : Params R) :
    ∃ c', parseConfig wide rd none (defaults merge u) (dumpParameters pr version c) = .ok c' ∧
      (∀ p ∈ wordParams (R := R), p.2 c' = p.2 c) ∧ (∀ p ∈ intParams (R := R) wide, p.2.2 c' = p.2.2 c) ∧
      (∀ p ∈ switchParams (R := R), p.2 c' = p.2 c) ∧ (∀ p ∈ realParams (R := R), p.2 c' = p.2 c) ∧
      c'.particleIdNeedHash = c.particleIdNeedHash ∧ c'.groupParticleIdMask = c.groupParticleIdMask ∧
      c'.snapshotIdList = c.snapshotIdList := by
  have ht := dump_table hd version
  -- every line is accepted
  have hok : ∀ l ∈ dumpParameters pr version c, (∀ x ∈ visible l, x = ' ' ∨ x = '\t') ∨ ∃ w ∈ knownNames, firstWord l = some w := by
    intro l hl
    obtain ⟨i, hlt, rfl⟩ := List.mem_iff_getElem.1 hl
    have hlt' : i < (table pr c).length := by rw [← ht.length_eq]; exact hlt
    have := (List.forall₂_iff_get.1 ht).2 i hlt hlt'
    simp only [List.get_eq_getElem] at this
    rcases this with ⟨h1, h2 | ⟨n, hn, h2⟩⟩
    · left; rw [h2]; simp
    · right; exact ⟨n, hn, by rw [firstWord, h1, h2]⟩
  obtain ⟨c1, h1⟩ := fold_ok (wide := wide) (rd := rd) (c := defaults merge u) hok
  -- the values
  have hint : ∀ p ∈ intParams (R := R) wide, p.2.2 c1 = p.2.2 c := by
    intro p hp
    have hm := table_int (pr := pr) c p hp
    obtain ⟨a, l, b, h2, h3, h4, ha⟩ := dump_line hd version hm
    rw [h2] at h1
    obtain ⟨rest, c2, _, h6, h7⟩ := slot_last (int_entry wide rd p hp) h1 h3 h4
    rw [h7]
    exact readInt_word (hd.int p hp) (by rw [h6, printInt_eq]) _
  have hword : ∀ p ∈ wordParams (R := R), p.2 c1 = p.2 c := by
    intro p hp
    have hm := table_word (pr := pr) c p hp
    obtain ⟨a, l, b, h2, h3, h4, ha⟩ := dump_line hd version hm
    rw [h2] at h1
    obtain ⟨rest, c2, _, h6, h7⟩ := slot_last (word_entry wide rd p hp) h1 h3 h4
    rw [h7]
    exact readWord_word h6 _
  have hsw : ∀ p ∈ switchParams (R := R), p.2 c1 = p.2 c := by
    intro p hp
    have hm := table_switch (pr := pr) c p hp
    obtain ⟨a, l, b, h2, h3, h4, ha⟩ := dump_line hd version hm
    rw [h2] at h1
    obtain ⟨rest, c2, _, h6, h7⟩ := slot_last (switch_entry wide rd p hp) h1 h3 h4
    rw [h7]
    exact readBool_word h6 _
  have hreal : ∀ p ∈ realParams (R := R), p.2 c1 = p.2 c := by
    intro p hp
    have hm := table_real (pr := pr) c p hp
    obtain ⟨a, l, b, h2, h3, h4, ha⟩ := dump_line hd version hm
    rw [h2] at h1
    obtain ⟨rest, c2, _, h6, h7⟩ := slot_last (real_entry wide rd p hp) h1 h3 h4
    rw [h7]
    exact (hd.real p hp).2 _ _ h6
  have hhash : c1.particleIdNeedHash = c.particleIdNeedHash := by
    have hm := table_hash (pr := pr) c
    obtain ⟨a, l, b, h2, h3, h4, ha⟩ := dump_line hd version hm
    rw [h2] at h1
    obtain ⟨rest, c2, _, h6, h7⟩ := slot_last needHash_slot h1 h3 h4
    rw [h7]
    exact readBool_word h6 _
  have hmask : c1.groupParticleIdMask = c.groupParticleIdMask := by
    by_cases h0 : c.groupParticleIdMask = 0
    · rw [h0, slot_fold mask_slot h1]
      · rfl
      · have := table_mask (pr := pr) c
        rw [if_pos h0] at this
        exact dump_no_line hd version this
    · have hm := table_mask (pr := pr) c
      rw [if_neg h0] at hm
      obtain ⟨a, l, b, h2, h3, h4, ha⟩ := dump_line hd version hm
      rw [h2] at h1
      obtain ⟨rest, c2, _, h6, h7⟩ := slot_last mask_slot h1 h3 h4
      rw [h7]
      obtain ⟨r, h8, _, _, _, h9, _⟩ := extractWord_words h6
      rw [readInt, extractInt_signed (by decide) (by decide) hd.mask.2 h8 h9]
  have hids : c1.snapshotIdList = c.snapshotIdList := by
    by_cases h0 : c.snapshotIdList = []
    · rw [h0, slot_fold idList_slot h1]
      · rfl
      · have := table_ids (pr := pr) c
        rw [if_pos h0] at this
        exact dump_no_line hd version this
    · have hm := table_ids (pr := pr) c
      rw [if_neg h0] at hm
      obtain ⟨a, l, b, h2, h3, h4, ha⟩ := dump_line hd version hm
      rw [h2] at h1
      obtain ⟨rest, c2, h5, h6, h7⟩ := slot_last idList_slot h1 h3 h4
      have h8 := slot_fold idList_slot h5 ha
      have h9 := words_length rest
      rw [h6, List.length_map] at h9
      rw [h7, h8, readInts_words hd.ids h6 (by omega)]
      rfl
  have hset : c1.isSet.all id = true := by
    refine isSet_all h1 rfl ?_
    intro n hn
    obtain ⟨ws, hw⟩ := table_compulsory (pr := pr) c n hn
    obtain ⟨a, l, b, h2, h3, h4, ha⟩ := dump_line hd version hw
    exact ⟨l, by rw [h2]; simp, by rw [firstWord, h3]; rfl⟩
  have hmax : c1.maxSnapshotIndex = c.maxSnapshotIndex := hint _ (by unfold intParams; exact List.mem_cons_self)
  have hrank : c1.particleIdRankStyle = c.particleIdRankStyle := hsw _ (List.mem_of_getElem? (i := 2) rfl)
  refine ⟨deriveParams c1, ?_, ?_, ?_, ?_, ?_, ?_, hmask, hids⟩
  · have hcu : checkUnset c1 = .ok () := by
      rw [checkUnset, if_pos hset, hids, hmax]
      rcases hd.size with h | h
      · rw [h]; rfl
      · split_ifs with h2
        · omega
        · rfl
        · rfl
    rw [parseConfig, h1, Outcome.bind_ok, hcu, Outcome.bind_ok, readNames]
    refine if_pos (.inl ?_)
    change c1.snapshotNameList.length = 0
    rw [nameList_keep h1]
    rfl
  · intro p hp
    rw [← hword p hp]
    exact word_settled p hp c1 _
  · intro p hp
    rw [← hint p hp]
    exact int_settled p hp c1 _
  · intro p hp
    rw [← hsw p hp]
    exact switch_settled p hp c1 _
  · intro p hp
    rw [← hreal p hp]
    exact real_settled p hp c1 _
  · change (if c1.particleIdRankStyle then false else c1.particleIdNeedHash) = _
    rw [hrank, hhash]
    split_ifs with h
    · exact (hd.hash h).symm
    · rfl

end HBT.Props
