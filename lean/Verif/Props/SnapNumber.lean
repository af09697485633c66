import Verif.Model.SnapNumber
import Verif.Props.ConfigExample
/-!
# C46: snapshot numbers and file names
-/
set_option linter.unusedSectionVars false
namespace HBT.Props
open HBT HBT.Model HBT.Spec
variable {R : Type}

/-! ## Numbers as text -/

theorem digitsVal_zeros (k : Nat) (ds : List Char) : digitsVal 10 (List.replicate k '0' ++ ds) = digitsVal 10 ds := by
  induction k with
  | zero => rfl
  | succ k ih =>
    rw [List.replicate_succ, List.cons_append]
    change List.foldl _ (10 * 0 + hexVal '0') _ = _
    rw [show 10 * 0 + hexVal '0' = 0 from by decide]
    exact ih

theorem hex_not {c x : Char} (hc : hexVal c < 16) (hx : hexVal x = 16) : c ≠ x := by
  rintro rfl
  omega

/-- The number a padded text stands for. -/
def textValue (cs : List Char) : Int :=
  if '-' ∈ cs then -(digitsVal 10 (cs.filter (fun c => c != '-')) : Int) else digitsVal 10 cs

theorem digits_no {x : Char} (hx : hexVal x = 16) (n : Nat) : x ∉ Nat.toDigits 10 n := by
  intro h
  have := toDigits_hex (b := 10) (by decide) (by decide) n x h
  omega

theorem textValue_pos (k n : Nat) : textValue (List.replicate k '0' ++ Nat.toDigits 10 n) = n := by
  rw [textValue, if_neg, digitsVal_zeros, digitsVal_toDigits (by decide) (by decide)]
  intro h
  rcases List.mem_append.1 h with h | h
  · exact absurd (List.eq_of_mem_replicate h) (by decide)
  · exact digits_no (by decide) n h

theorem textValue_neg (k k' n : Nat) : textValue (List.replicate k '0' ++ '-' :: (List.replicate k' '0' ++ Nat.toDigits 10 n)) = -(n : Int) := by
  have h0 : ∀ k, (List.replicate k '0').filter (fun c => c != '-') = List.replicate k '0' := by
    intro k
    rw [List.filter_eq_self]
    intro c hc
    rw [List.eq_of_mem_replicate hc]
    rfl
  have h1 : (Nat.toDigits 10 n).filter (fun c => c != '-') = Nat.toDigits 10 n := by
    rw [List.filter_eq_self]
    intro c hc
    have := hex_not (x := '-') (lt_of_lt_of_le (toDigits_hex (b := 10) (by decide) (by decide) n c hc) (by decide)) (by decide)
    simpa using this
  rw [textValue, if_pos (by simp), List.filter_append, List.filter_cons, if_neg (by decide), List.filter_append, h0, h0, h1,
    digitsVal_zeros, digitsVal_zeros, digitsVal_toDigits (by decide) (by decide)]

theorem printInt_value (v : Int) : textValue (printInt v) = v := by
  unfold printInt
  split_ifs with h
  · rw [show '-' :: Nat.toDigits 10 v.natAbs = List.replicate 0 '0' ++ '-' :: (List.replicate 0 '0' ++ Nat.toDigits 10 v.natAbs)
      from rfl, textValue_neg]
    omega
  · rw [show Nat.toDigits 10 v.natAbs = List.replicate 0 '0' ++ Nat.toDigits 10 v.natAbs from rfl, textValue_pos]
    omega

theorem padded_value (v : Int) : textValue (padded v) = v := by
  unfold padded
  by_cases h : v < 0
  · generalize 3 - (printInt v).length = k
    rw [printInt, if_pos h, show Nat.toDigits 10 v.natAbs = List.replicate 0 '0' ++ Nat.toDigits 10 v.natAbs from rfl, textValue_neg]
    omega
  · generalize 3 - (printInt v).length = k
    rw [printInt, if_neg h, textValue_pos]
    omega

theorem printf03_value (v : Int) : textValue (printf03 v) = v := by
  unfold printf03
  split_ifs with h
  · generalize 2 - (Nat.toDigits 10 v.natAbs).length = k
    rw [show ('-' :: (List.replicate k '0' ++ Nat.toDigits 10 v.natAbs)) =
      List.replicate 0 '0' ++ '-' :: (List.replicate k '0' ++ Nat.toDigits 10 v.natAbs) from rfl, textValue_neg]
    omega
  · rw [textValue_pos]
    omega

theorem printInt_inj {u v : Int} (h : printInt u = printInt v) : u = v := by
  rw [← printInt_value u, h, printInt_value]

theorem printf03_inj {u v : Int} (h : printf03 u = printf03 v) : u = v := by
  rw [← printf03_value u, h, printf03_value]

theorem printInt_no {x : Char} (hx : hexVal x = 16) (hm : x ≠ '-') (v : Int) : x ∉ printInt v := by
  unfold printInt
  split_ifs
  · rw [List.mem_cons, not_or]
    exact ⟨hm, digits_no hx _⟩
  · exact digits_no hx _

theorem padded_no {x : Char} (hx : hexVal x = 16) (hm : x ≠ '-') (v : Int) : x ∉ padded v := by
  unfold padded
  rw [List.mem_append, not_or]
  refine ⟨fun h => ?_, printInt_no hx hm v⟩
  rw [List.eq_of_mem_replicate h] at hx
  exact absurd hx (by decide)

theorem printf03_no {x : Char} (hx : hexVal x = 16) (hm : x ≠ '-') (v : Int) : x ∉ printf03 v := by
  have h0 : ∀ k, x ∉ List.replicate k '0' := by
    intro k h
    rw [List.eq_of_mem_replicate h] at hx
    exact absurd hx (by decide)
  unfold printf03
  split_ifs
  · simp only [List.mem_cons, List.mem_append, not_or]
    exact ⟨hm, h0 _, digits_no hx _⟩
  · simp only [List.mem_append, not_or]
    exact ⟨h0 _, digits_no hx _⟩

theorem split_unique {x : Char} {a b a' b' : List Char} (ha : x ∉ a) (ha' : x ∉ a') (h : a ++ x :: b = a' ++ x :: b') :
    a = a' ∧ b = b' := by
  induction a generalizing a' with
  | nil =>
    cases a' with
    | nil => exact ⟨rfl, (List.cons.inj h).2⟩
    | cons y a' => exact absurd (by rw [(List.cons.inj h).1]; simp) ha'
  | cons y a ih =>
    cases a' with
    | nil => exact absurd (by rw [← (List.cons.inj h).1]; simp) ha
    | cons z a' =>
      obtain ⟨h1, h2⟩ := List.cons.inj h
      obtain ⟨h3, h4⟩ := ih (fun hh => ha (by simp [hh])) (fun hh => ha' (by simp [hh])) h2
      exact ⟨by rw [h1, h3], h4⟩

/-! ## C46 -/

variable {c : Params R}

/-- An index outside the configured range is rejected. -/
theorem C46_rejected {i : Int} (h : i < c.minSnapshotIndex ∨ c.maxSnapshotIndex < i) : setSnapshotIndex c i = .abort := by
  rw [setSnapshotIndex]
  have : (decide (c.minSnapshotIndex ≤ i) && decide (i ≤ c.maxSnapshotIndex)) = false := by
    rcases h with h | h
    · rw [decide_eq_false (by omega), Bool.false_and]
    · rw [decide_eq_false (p := i ≤ _) (by omega), Bool.and_false]
  rw [this]
  rfl

/-- With a configuration as accepted by the parser and a first snapshot that is not negative, an index in range is
accepted; the id is the index, or the entry of the configured list. -/
theorem C46_accepted [Field R] {wide : Nat} {rd : List Char → R → R} {names : Option (List (List Char))} {c0 : Params R}
    {lines : List (List Char)} (hc : parseConfig wide rd names c0 lines = .ok c) (hmin : 0 ≤ c.minSnapshotIndex) {i : Int}
    (h1 : c.minSnapshotIndex ≤ i) (h2 : i ≤ c.maxSnapshotIndex) :
    ∃ id, setSnapshotIndex c i = .ok ⟨i, id⟩ ∧ (c.snapshotIdList = [] → id = i) ∧
      (c.snapshotIdList ≠ [] → c.snapshotIdList[i.toNat]? = some id) := by
  rw [setSnapshotIndex, decide_eq_true h1, decide_eq_true h2]
  simp only [Bool.and_self, Outcome.assert_true, Outcome.bind_ok]
  by_cases he : c.snapshotIdList = []
  · rw [he]
    exact ⟨i, rfl, fun _ => rfl, fun h => absurd rfl h⟩
  · have hlen := ((C45_consistent hc).1).resolve_left he
    have hlt : i.toNat < c.snapshotIdList.length := by omega
    refine ⟨c.snapshotIdList[i.toNat], ?_, fun h => absurd h he, fun _ => List.getElem?_eq_getElem hlt⟩
    rw [if_neg (by simpa using he), Outcome.getI, if_neg (by omega), Outcome.get_of_lt hlt]
    rfl

/-- Distinct ids give distinct stems. -/
theorem C46_stems {s t : SnapNumber} (h : formatSnapshotId s = formatSnapshotId t) : s.id = t.id := by
  unfold formatSnapshotId at h
  rw [← padded_value s.id, h, padded_value]

/-- Distinct snapshots, file numbers or kinds of file give distinct catalogue files. -/
theorem C46_catalogue_names {s t : SnapNumber} {i j : Int} {f g : List Char} (hf : f = "Sub".toList ∨ f = "Src".toList)
    (hg : g = "Sub".toList ∨ g = "Src".toList) (h : subFileName c s i f = subFileName c t j g) :
    s.index = t.index ∧ i = j ∧ f = g := by
  unfold subFileName subDir at h
  simp only [List.append_assoc, List.cons_append, List.append_cancel_left_eq, List.cons.injEq, true_and] at h
  obtain ⟨h1, h2⟩ := split_unique (padded_no (by decide) (by decide) _) (padded_no (by decide) (by decide) _) h
  have h3 : s.index = t.index := by rw [← padded_value s.index, h1, padded_value]
  rw [h3] at h2
  have hlen : f.length = g.length := by rcases hf with rfl | rfl <;> rcases hg with rfl | rfl <;> rfl
  obtain ⟨h4, h5⟩ := List.append_inj h2 hlen
  simp only [List.append_cancel_left_eq, List.cons.injEq, true_and] at h5
  exact ⟨h3, printInt_inj (List.append_cancel_right h5), h4⟩

/-- The three conventions for snapshot files cannot be confused: the file found for one snapshot and file number is
not the file found for another, whatever files exist. -/
theorem C46_gadget_names (hb : '/' ∉ c.snapshotFileBase) {there : List Char → Bool} {s t i j : Int} {f : List Char}
    (h1 : gadgetFileName c there s i = .ok f) (h2 : gadgetFileName c there t j = .ok f) : s = t ∧ i = j := by
  have key : ∀ s i, gadgetFileName c there s i = .ok f → ∃ r, f = c.snapshotPath ++ '/' :: r ∧
      (r = ("snapdir_".toList ++ printf03 s) ++ '/' :: (c.snapshotFileBase ++ '_' :: (printf03 s ++ '.' :: printInt i)) ∨
       (i = 0 ∧ r = c.snapshotFileBase ++ '_' :: printf03 s) ∨
       r = c.snapshotFileBase ++ '_' :: (printf03 s ++ '.' :: printInt i) ∨
       r = printInt s ++ '/' :: (c.snapshotFileBase ++ '.' :: printInt i)) := by
    intro s i h
    rw [gadgetFileName] at h
    split_ifs at h with g1 g2 g3 g4 g5 g6 g7 g8 g9 g10 g11 g12 g13 g14 g15
    all_goals
      simp only [Outcome.ok.injEq] at h
      subst h
      simp only [List.append_assoc, List.cons_append]
      refine ⟨_, rfl, ?_⟩
      simp only [List.append_assoc, List.cons_append, true_or, or_true, g1, and_self]
  have hslash : ∀ v, '/' ∉ printf03 v := fun v => printf03_no (by decide) (by decide) v
  have hdot : ∀ v, '.' ∉ printf03 v := fun v => printf03_no (by decide) (by decide) v
  have hBC : ∀ v r, (r = [] ∨ ∃ k, r = '.' :: printInt k) → '/' ∉ c.snapshotFileBase ++ '_' :: (printf03 v ++ r) := by
    intro v r hr
    simp only [List.mem_append, List.mem_cons, not_or]
    refine ⟨hb, by decide, hslash v, ?_⟩
    rcases hr with rfl | ⟨k, rfl⟩
    · simp
    · rw [List.mem_cons, not_or]
      exact ⟨by decide, printInt_no (by decide) (by decide) k⟩
  have hA : ∀ v, '/' ∉ "snapdir_".toList ++ printf03 v := by
    intro v
    rw [List.mem_append, not_or]
    exact ⟨by decide, hslash v⟩
  have hs : ∀ v, 's' ∉ printInt v := fun v => printInt_no (by decide) (by decide) v
  obtain ⟨r, hf, h1⟩ := key s i h1
  obtain ⟨r', hf', h2⟩ := key t j h2
  have hr : r = r' := by
    rw [hf] at hf'
    simpa using hf'
  subst hr
  clear key hf hf'
  rcases h1 with h1 | ⟨hi, h1⟩ | h1 | h1 <;> rcases h2 with h2 | ⟨hj, h2⟩ | h2 | h2
  · rw [h1] at h2
    obtain ⟨h3, h4⟩ := split_unique (hA s) (hA t) h2
    have h5 := printf03_inj (List.append_cancel_left h3)
    subst h5
    simp only [List.append_cancel_left_eq, List.cons.injEq, true_and] at h4
    exact ⟨rfl, printInt_inj h4⟩
  · have := hBC t [] (.inl rfl)
    rw [List.append_nil, ← h2, h1] at this
    simp at this
  · have := hBC t _ (.inr ⟨j, rfl⟩)
    rw [← h2, h1] at this
    simp at this
  · rw [h1] at h2
    obtain ⟨h3, _⟩ := split_unique (hA s) (printInt_no (by decide) (by decide) t) h2
    have := hs t
    rw [← h3] at this
    simp at this
  · have := hBC s [] (.inl rfl)
    rw [List.append_nil, ← h1, h2] at this
    simp at this
  · rw [h1] at h2
    have h3 : printf03 s = printf03 t := by simpa using h2
    exact ⟨printf03_inj h3, by rw [hi, hj]⟩
  · rw [h1] at h2
    have h3 : printf03 s = printf03 t ++ '.' :: printInt j := by simpa using h2
    have := hdot s
    rw [h3] at this
    simp at this
  · have := hBC s [] (.inl rfl)
    rw [List.append_nil, ← h1, h2] at this
    simp at this
  · have := hBC s _ (.inr ⟨i, rfl⟩)
    rw [← h1, h2] at this
    simp at this
  · rw [h1] at h2
    have h3 : printf03 s ++ '.' :: printInt i = printf03 t := by simpa using h2
    have := hdot t
    rw [← h3] at this
    simp at this
  · rw [h1] at h2
    have h3 : printf03 s ++ '.' :: printInt i = printf03 t ++ '.' :: printInt j := by simpa using h2
    obtain ⟨h4, h5⟩ := split_unique (hdot s) (hdot t) h3
    exact ⟨printf03_inj h4, printInt_inj h5⟩
  · have := hBC s _ (.inr ⟨i, rfl⟩)
    rw [← h1, h2] at this
    simp at this
  · rw [h1] at h2
    obtain ⟨h3, _⟩ := split_unique (printInt_no (by decide) (by decide) s) (hA t) h2
    have := hs s
    rw [h3] at this
    simp at this
  · have := hBC t [] (.inl rfl)
    rw [List.append_nil, ← h2, h1] at this
    simp at this
  · have := hBC t _ (.inr ⟨j, rfl⟩)
    rw [← h2, h1] at this
    simp at this
  · rw [h1] at h2
    obtain ⟨h3, h4⟩ := split_unique (printInt_no (by decide) (by decide) s) (printInt_no (by decide) (by decide) t) h2
    simp only [List.append_cancel_left_eq, List.cons.injEq, true_and] at h4
    exact ⟨printInt_inj h3, printInt_inj h4⟩

/-- Distinct ids and file numbers give distinct names of Apostle snapshot files, without a list of names. -/
theorem C46_apostle_names (hn : c.snapshotNameList = []) {s t i j : Int} {m n f : List Char} (hm : apostleName c s = .ok m)
    (hn' : apostleName c t = .ok n) (h1 : apostleFileName c m i = .ok f) (h2 : apostleFileName c n j = .ok f) : s = t ∧ i = j := by
  rw [apostleName, if_pos (by rw [hn]; rfl), Outcome.ok.injEq] at hm hn'
  subst hm hn'
  rw [apostleFileName] at h1 h2
  split_ifs at h1 h2
  simp only [Outcome.ok.injEq] at h1 h2
  rw [← h2] at h1
  simp only [List.append_assoc, List.cons_append, List.append_cancel_left_eq, List.cons.injEq, true_and] at h1
  obtain ⟨h3, h4⟩ := split_unique (padded_no (by decide) (by decide) _) (padded_no (by decide) (by decide) _) h1
  have h5 : s = t := by rw [← padded_value s, h3, padded_value]
  subst h5
  simp only [List.append_cancel_left_eq, List.cons.injEq, true_and] at h4
  exact ⟨rfl, printInt_inj (List.append_cancel_right h4)⟩

/-! ## Examples and findings -/

/-- Non-vacuity of `C46_accepted`: the third snapshot of the example file. -/
example : (do let c ← exampleParsed; setSnapshotIndex c 3) = .ok ⟨3, 5⟩ ∧ (do let c ← exampleParsed; setSnapshotIndex c 6) = .abort ∧
    (do let c ← exampleParsed; pure (decide (0 ≤ c.minSnapshotIndex))) = .ok true := by
  decide +kernel

example : padded 7 = "007".toList ∧ padded 1234 = "1234".toList ∧ padded (-5) = "0-5".toList ∧ printf03 (-5) = "-05".toList := by
  decide +kernel

example : subFileName exampleConfig ⟨3, 5⟩ 12 "Src".toList = "out/003/SrcSnap_003.12.hdf5".toList := by
  decide +kernel

/-- Non-vacuity of `C46_gadget_names`. -/
example : gadgetFileName exampleConfig (fun f => f = "/data/snap/s_005.2".toList) 5 2 = .ok "/data/snap/s_005.2".toList ∧
    gadgetFileName exampleConfig (fun f => f = "/data/snap/s_005".toList) 5 0 = .ok "/data/snap/s_005".toList ∧
    gadgetFileName exampleConfig (fun f => f = "/data/snap/5/s.0".toList) 5 0 = .ok "/data/snap/5/s.0".toList := by
  decide +kernel

example : (do let m ← apostleName exampleConfig 5; apostleFileName exampleConfig m 2) =
    .ok "/data/snap/snapshot_005/snap_005.2.hdf5".toList := by
  decide +kernel

/-- Finding: the smallest index is not checked, so a negative one is accepted by the parser and, with a list of
ids, used as a subscript. -/
theorem C46_negative_index : (do
    let c ← parseConfig 32 readWhole none (defaults true blankParams)
      (enough ++ ["MinSnapshotIndex -1".toList, "SnapshotIdList 1 2 3 4".toList])
    setSnapshotIndex c (-1)) = .ub := by
  decide +kernel

/-- Finding: the list of snapshot names has one entry per index, but the Apostle reader looks names up by id. With a list of
ids as well, the wrong name is taken, or an access is out of range. -/
theorem C46_name_by_id : (do
    let c ← parseConfig 32 readWhole (some ["n0".toList, "n1".toList, "n2".toList, "n3".toList]) (defaults true blankParams)
      (enough ++ ["SnapshotIdList 1 3 5 7".toList])
    let s ← setSnapshotIndex c 0
    apostleName c s.id) = .ok "n1".toList ∧
    (do
    let c ← parseConfig 32 readWhole (some ["n0".toList, "n1".toList, "n2".toList, "n3".toList]) (defaults true blankParams)
      (enough ++ ["SnapshotIdList 1 3 5 7".toList])
    let s ← setSnapshotIndex c 2
    apostleName c s.id) = .ub := by
  decide +kernel

end HBT.Props
