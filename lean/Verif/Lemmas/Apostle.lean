import Verif.Lemmas.HaloExchange
import Verif.Props.HaloExchange
import Verif.Model.Apostle
import Verif.Spec.Records
import Verif.Lemmas.Average
/-!
# Lemmas about loading particles with group numbers
-/
namespace HBT
open HBT.Model HBT.Spec
variable {R H α I : Type}

/-! ### Reading -/

/-- The records of one file. -/
def fileRecords (i : Nat) (f : PartFile R) : List (Nat × R) :=
  (f.zipIdx i).flatMap (fun t => (t.1.2.getD []).map (fun r => (t.2, r)))

theorem fileRecords_cons (i : Nat) (t : Nat × Option (List R)) (f : PartFile R) :
    fileRecords i (t :: f) = (t.2.getD []).map (fun r => (i, r)) ++ fileRecords (i + 1) f := by
  simp [fileRecords, List.zipIdx_cons]

theorem fileRecords_length (i : Nat) (f : PartFile R) (hf : ∀ t ∈ f, (t.2.getD []).length = t.1) :
    (fileRecords i f).length = f.np := by
  induction f generalizing i with
  | nil => rfl
  | cons t f ih =>
    rw [fileRecords_cons, List.length_append, List.length_map, hf t (by simp),
      ih (i + 1) (fun t ht => hf t (by simp [ht]))]
    simp [PartFile.np]

theorem writeAt_mid {α : Type} (pre mid post xs : List α) (h : mid.length = xs.length) :
    writeAt (pre ++ mid ++ post) pre.length xs = .ok (pre ++ xs ++ post) := by
  unfold writeAt
  rw [if_pos (by simp; omega)]
  congr 1
  rw [List.append_assoc pre mid post, List.take_left' rfl, ← List.drop_drop, List.drop_left' rfl,
    List.drop_left' h]

theorem readTypes_ok (conv : Nat → R → H) (base o : Nat) (i : Nat) (f : PartFile R)
    (hf : ∀ t ∈ f, (t.2.getD []).length = t.1) (pre mid post : List H) (hp : pre.length = base + o)
    (hm : mid.length = f.np) :
    readTypes conv base i (compileOffsetsFrom o (f.map Prod.fst)).1 f (pre ++ mid ++ post)
      = .ok (pre ++ (fileRecords i f).map (fun x => conv x.1 x.2) ++ post) := by
  induction f generalizing o i pre mid with
  | nil =>
    have : mid = [] := List.length_eq_zero_iff.mp (by rw [hm]; rfl)
    subst this
    simp [readTypes, compileOffsetsFrom, fileRecords]
  | cons t f ih =>
    obtain ⟨n, d⟩ := t
    have hd := hf (n, d) (by simp)
    have hf' := fun t ht => hf t (List.mem_cons_of_mem _ ht)
    have hnp : PartFile.np ((n, d) :: f) = n + PartFile.np f := by simp [PartFile.np]
    rw [hnp] at hm
    simp only at hd
    rw [List.map_cons, compileOffsetsFrom, fileRecords_cons]
    simp only
    rw [readTypes.eq_def]
    simp only
    by_cases h0 : n = 0
    · subst h0
      have e : d.getD [] = [] := List.length_eq_zero_iff.mp hd
      rw [if_pos rfl, e]
      exact ih (o + 0) (i + 1) hf' pre mid (by omega) (by omega)
    · rw [if_neg h0]
      cases d with
      | none => simp at hd; omega
      | some d =>
        simp only [Option.getD_some] at hd ⊢
        rw [if_neg (by simpa using hd)]
        have e : mid = mid.take n ++ mid.drop n := (List.take_append_drop n mid).symm
        have e1 : pre ++ mid ++ post = pre ++ mid.take n ++ (mid.drop n ++ post) := by
          rw [← List.append_assoc, List.append_assoc pre (mid.take n), List.take_append_drop]
        rw [e1, ← hp, writeAt_mid _ _ _ _ (by simp; omega), Outcome.bind_ok, ← List.append_assoc,
          ih (o + n) (i + 1) hf' (pre ++ d.map (conv i)) (mid.drop n) (by simp; omega) (by simp; omega)]
        simp [Function.comp_def]

theorem readPartFiles_ok (conv : Nat → R → H) (files : List (PartFile R)) (hf : Announced files)
    (skip : Nat) : ∀ (n iFile : Nat) (pre mid : List H), skip ≤ iFile → iFile + n ≤ files.length →
    pre.length = (((files.map PartFile.np).drop skip).take (iFile - skip)).sum →
    mid.length = (((files.map PartFile.np).drop iFile).take n).sum →
    readPartFiles conv files (compileOffsets (files.map PartFile.np)).1 skip n iFile (pre ++ mid)
      = .ok (pre ++ ((files.drop iFile).take n).flatMap (fun f => (fileRecords 0 f).map (fun x => conv x.1 x.2)))
  | 0, iFile, pre, mid, _, _, _, hm => by
    have : mid = [] := List.length_eq_zero_iff.mp (by rw [hm]; simp)
    subst this
    simp [readPartFiles]
  | n + 1, iFile, pre, mid, h1, h2, hp, hm => by
    have hget : ∀ i, i < files.length → Outcome.get (compileOffsets (files.map PartFile.np)).1 i
        = .ok (((files.map PartFile.np).take i).sum) := by
      intro i hi
      unfold Outcome.get compileOffsets
      rw [compileOffsetsFrom_get 0 _ i (by simpa using hi)]
      simp
    have hi : iFile < files.length := by omega
    rw [readPartFiles, hget _ hi, Outcome.bind_ok, hget _ (by omega), Outcome.bind_ok, Outcome.get_of_lt hi,
      Outcome.bind_ok]
    have hsum : ((files.map PartFile.np).take iFile).sum = ((files.map PartFile.np).take skip).sum + pre.length := by
      rw [hp, ← List.sum_append]
      congr 1
      conv_lhs => rw [show iFile = skip + (iFile - skip) by omega]
      rw [List.take_add]
    rw [if_neg (by omega), hsum, Nat.add_sub_cancel_left]
    have hdrop : files.drop iFile = files[iFile] :: files.drop (iFile + 1) := List.drop_eq_getElem_cons hi
    have hmd : mid.length = (files[iFile]).np + (((files.map PartFile.np).drop (iFile + 1)).take n).sum := by
      rw [hm, List.drop_eq_getElem_cons (by simpa using hi), List.take_succ_cons, List.sum_cons, List.getElem_map]
    have e : pre ++ mid = pre ++ mid.take (files[iFile]).np ++ mid.drop (files[iFile]).np := by
      rw [List.append_assoc, List.take_append_drop]
    rw [e]
    unfold compileOffsets
    rw [readTypes_ok conv pre.length 0 0 files[iFile] (hf _ (List.getElem_mem hi)) pre _ _ (by omega)
      (by simp; omega), Outcome.bind_ok]
    have := readPartFiles_ok conv files hf skip n (iFile + 1)
      (pre ++ (fileRecords 0 files[iFile]).map (fun x => conv x.1 x.2)) (mid.drop (files[iFile]).np)
      (by omega) (by omega) (by
        rw [List.length_append, List.length_map, fileRecords_length 0 _ (hf _ (List.getElem_mem hi)), hp,
          show iFile + 1 - skip = (iFile - skip) + 1 by omega, sum_take_succ' _ _ (by simp; omega)]
        congr 1
        simp only [List.getElem_drop, List.getElem_map]
        congr 2
        omega) (by simp; omega)
    unfold compileOffsets at this
    rw [this, hdrop, List.take_succ_cons, List.flatMap_cons, List.append_assoc]

/-- Where the files of rank `w` begin. -/
def firstFile (n P w : Nat) : Nat := n / P * w + min (n % P) w

theorem firstFile_mono (n P w : Nat) : firstFile n P w ≤ firstFile n P (w + 1) := by
  simp only [firstFile, Nat.mul_succ]
  generalize n / P = q
  omega

theorem firstFile_zero (n P : Nat) : firstFile n P 0 = 0 := by simp [firstFile]

theorem firstFile_all (n : Nat) {P : Nat} (hP : 0 < P) : firstFile n P P = n := by
  simp only [firstFile]
  have := Nat.div_add_mod n P
  have := Nat.mod_lt n hP
  rw [Nat.mul_comm]
  omega

theorem firstFile_le (n : Nat) {P w : Nat} (hP : 0 < P) (hw : w ≤ P) : firstFile n P w ≤ n := by
  conv_rhs => rw [← firstFile_all n hP]
  exact monotone_nat_of_le_succ (firstFile_mono n P) hw

/-- The files of the ranks, one rank after the other, are all files. -/
theorem segs_flatten {α β : Type} (files : List α) (g : α → List β) {P : Nat} (hP : 0 < P) :
    (List.ofFn fun r : Fin P => (seg files (firstFile files.length P) r.val).flatMap g).flatten = files.flatMap g := by
  have h := seg_flatten files (firstFile files.length P) (firstFile_mono _ P) 0 P
  rw [Nat.zero_add, firstFile_zero, firstFile_all _ hP, List.drop_zero, Nat.sub_zero, List.take_length] at h
  have e : (List.range' 0 P).map (seg files (firstFile files.length P)) =
      List.ofFn (fun r : Fin P => seg files (firstFile files.length P) r.val) := by
    apply List.ext_getElem
    · simp
    · intro i h1 h2; simp
  rw [e] at h
  conv_rhs => rw [← h]
  rw [List.flatMap_def, List.map_flatten, List.flatten_flatten, List.map_map, List.map_ofFn]
  simp only [Function.comp_def, List.flatMap_def]

/-- What each rank has after reading. -/
theorem loadParticles_eq {P : Nat} (hP : 0 < P) (conv : Nat → R → H) (blank : H) (files : List (PartFile R))
    (hf : Announced files) :
    loadParticles P conv blank files = .ok fun r => (seg files (firstFile files.length P) r.val).flatMap
      (fun f => (fileRecords 0 f).map (fun x => conv x.1 x.2)) := by
  unfold loadParticles
  simp only
  apply allRanks_ok
  intro r
  rw [Props.assignTasks_ok r.val P files.length r.isLt, Outcome.bind_ok]
  have h1 := firstFile_mono files.length P r.val
  have h2 : firstFile files.length P (r.val + 1) ≤ files.length := firstFile_le files.length hP r.isLt
  have := readPartFiles_ok conv files hf (firstFile files.length P r.val)
    (firstFile files.length P (r.val + 1) - firstFile files.length P r.val) (firstFile files.length P r.val) []
    (List.replicate ((((files.map PartFile.np).drop (firstFile files.length P r.val)).take
      (firstFile files.length P (r.val + 1) - firstFile files.length P r.val)).sum) blank)
    (Nat.le_refl _) (by omega) (by simp) (by simp)
  simp only [List.nil_append] at this
  exact this

/-- The particles after reading are, rank after rank, the records of the files. -/
theorem loadParticles_ok {P : Nat} (hP : 0 < P) (conv : Nat → R → H) (blank : H) (files : List (PartFile R))
    (hf : Announced files) :
    ∃ out : Fin P → List H, loadParticles P conv blank files = .ok out ∧
      (List.ofFn out).flatten = (records files).map (fun x => conv x.1 x.2) := by
  refine ⟨_, loadParticles_eq hP conv blank files hf, ?_⟩
  rw [segs_flatten files _ hP]
  have hrec : records files = files.flatMap (fileRecords 0) := rfl
  rw [hrec, List.map_flatMap]

/-! ### Groups of one rank -/

theorem min_split {β : Type} (key : β → Int) (d : Int) : ∀ (L : List β), L.Pairwise (fun x y => key x ≤ key y) →
    (∀ x ∈ L, d ≤ key x) →
    L = L.filter (fun x => decide (key x = d)) ++ L.filter (fun x => decide (d < key x))
  | [], _, _ => rfl
  | a :: L, hs, hm => by
    have hsl := List.pairwise_cons.mp hs
    have ih := min_split key d L hsl.2 (fun x hx => hm x (by simp [hx]))
    have ha := hm a (by simp)
    by_cases h : key a = d
    · rw [List.filter_cons_of_pos (by simpa using h), List.filter_cons_of_neg (by simp; omega),
        List.cons_append, ← ih]
    · rw [List.filter_cons_of_neg (by simpa using h), List.filter_cons_of_pos (by simp; omega)]
      have h1 : L.filter (fun x => decide (key x = d)) = [] := by
        rw [List.filter_eq_nil_iff]
        intro x hx; have := hsl.1 x hx; simp; omega
      rw [h1] at ih ⊢
      rw [List.nil_append] at *
      rw [← ih]

theorem countGroups_run : ∀ (hs : List Int) (curr : Int) (k : Nat) (L : List (Int × Nat)),
    hs.Pairwise (· ≤ ·) → (∀ h ∈ hs, curr ≤ h ∧ h ≤ nullGroupId) → curr < nullGroupId →
    ∃ ds : List Int, countGroups curr (L ++ [(curr, k)]) hs
        = .ok (L ++ (curr, k + hs.count curr) :: ds.map (fun d => (d, hs.count d))) ∧
      ds.Pairwise (· < ·) ∧ ∀ d, d ∈ ds ↔ d ∈ hs ∧ curr < d ∧ d < nullGroupId
  | [], curr, k, L, _, _, _ => ⟨[], by simp [countGroups], by simp, by simp⟩
  | h :: hs, curr, k, L, hp, hb, hc => by
    obtain ⟨hp1, hp2⟩ := List.pairwise_cons.mp hp
    obtain ⟨hb1, hb2⟩ := hb h (by simp)
    rw [countGroups]
    by_cases hn : h = nullGroupId
    · rw [if_pos hn]
      refine ⟨[], ?_, by simp, ?_⟩
      · have : (h :: hs).count curr = 0 := by
          rw [List.count_eq_zero]
          intro hm
          rcases List.mem_cons.mp hm with e | hm
          · omega
          · have := hp1 _ hm; omega
        rw [this]; simp
      · intro d
        simp only [List.not_mem_nil, List.mem_cons, false_iff, not_and, not_lt]
        rintro (rfl | hd) _
        · omega
        · have := hp1 d hd; omega
    · rw [if_neg hn]
      by_cases he : h = curr
      · subst he
        rw [if_neg (by simp), List.getLast?_concat]
        simp only [List.dropLast_concat]
        obtain ⟨ds, h1, h2, h3⟩ := countGroups_run hs h (k + 1) L hp2
          (fun x hx => ⟨hp1 x hx, (hb x (by simp [hx])).2⟩) hc
        refine ⟨ds, ?_, h2, ?_⟩
        · rw [h1]
          congr 3
          · rw [List.count_cons_self]; congr 1; omega
          · apply List.map_congr_left
            intro d hd
            have := (h3 d).mp hd
            rw [List.count_cons_of_ne (by omega)]
        · intro d
          rw [h3]
          constructor
          · rintro ⟨a, b⟩; exact ⟨by simp [a], b⟩
          · rintro ⟨a, b⟩
            rcases List.mem_cons.mp a with e | a
            · omega
            · exact ⟨a, b⟩
      · rw [if_pos he]
        obtain ⟨ds, h1, h2, h3⟩ := countGroups_run hs h 1 (L ++ [(curr, k)]) hp2
          (fun x hx => ⟨hp1 x hx, (hb x (by simp [hx])).2⟩) (by omega)
        refine ⟨h :: ds, ?_, ?_, ?_⟩
        · rw [h1]
          have e0 : (h :: hs).count curr = 0 := by
            rw [List.count_eq_zero]
            intro hm
            rcases List.mem_cons.mp hm with e | hm
            · omega
            · have := hp1 _ hm; omega
          rw [e0, List.append_assoc, List.map_cons, List.count_cons_self]
          simp only [Nat.add_zero, List.cons_append, List.nil_append]
          congr 4
          · congr 1; omega
          · apply List.map_congr_left
            intro d hd
            have := (h3 d).mp hd
            rw [List.count_cons_of_ne (by omega)]
        · rw [List.pairwise_cons]
          exact ⟨fun d hd => ((h3 d).mp hd).2.1, h2⟩
        · intro d
          rw [List.mem_cons, h3, List.mem_cons]
          constructor
          · rintro (rfl | ⟨a, b, c⟩)
            · exact ⟨Or.inl rfl, by omega, by omega⟩
            · exact ⟨Or.inr a, by omega, c⟩
          · rintro ⟨rfl | a, b, c⟩
            · exact Or.inl rfl
            · by_cases hd : d = h
              · exact Or.inl hd
              · have := hp1 d a
                exact Or.inr ⟨a, by omega, c⟩

theorem countGroups_ok (hs : List Int) (hp : hs.Pairwise (· ≤ ·)) (hb : ∀ h ∈ hs, h ≤ nullGroupId) :
    ∃ ds : List Int, countGroups nullGroupId [] hs = .ok (ds.map (fun d => (d, hs.count d))) ∧
      ds.Pairwise (· < ·) ∧ ∀ d, d ∈ ds ↔ d ∈ hs ∧ d < nullGroupId := by
  cases hs with
  | nil => exact ⟨[], by simp [countGroups], by simp, by simp⟩
  | cons h hs =>
    obtain ⟨hp1, hp2⟩ := List.pairwise_cons.mp hp
    have hb1 := hb h (by simp)
    rw [countGroups]
    by_cases hn : h = nullGroupId
    · rw [if_pos hn]
      refine ⟨[], by simp, by simp, ?_⟩
      intro d
      simp only [List.not_mem_nil, List.mem_cons, false_iff, not_and, not_lt]
      rintro (rfl | hd)
      · omega
      · have := hp1 d hd; omega
    · rw [if_neg hn, if_pos hn]
      obtain ⟨ds, h1, h2, h3⟩ := countGroups_run hs h 1 [] hp2
          (fun x hx => ⟨hp1 x hx, hb x (by simp [hx])⟩) (by omega)
      refine ⟨h :: ds, ?_, ?_, ?_⟩
      · rw [h1, List.map_cons, List.count_cons_self]
        simp only [List.nil_append]
        congr 2
        · congr 1; omega
        · apply List.map_congr_left
          intro d hd
          have := (h3 d).mp hd
          rw [List.count_cons_of_ne (by omega)]
      · rw [List.pairwise_cons]
        exact ⟨fun d hd => ((h3 d).mp hd).2.1, h2⟩
      · intro d
        rw [List.mem_cons, h3, List.mem_cons]
        constructor
        · rintro (rfl | ⟨a, b, c⟩)
          · exact ⟨Or.inl rfl, by omega⟩
          · exact ⟨Or.inr a, c⟩
        · rintro ⟨rfl | a, c⟩
          · exact Or.inl rfl
          · by_cases hd : d = h
            · exact Or.inl hd
            · have := hp1 d a
              exact Or.inr ⟨a, by omega, c⟩

theorem snd_count (ps : List (α × Int)) (d : Int) :
    (ps.map Prod.snd).count d = (ps.filter (fun x => decide (x.2 = d))).length := by
  rw [List.count, List.countP_map, List.countP_eq_length_filter]
  congr 1

theorem fillGroups_ok : ∀ (ds : List Int) (ps : List (α × Int)), ds.Pairwise (· < ·) →
    ps.Pairwise (fun a b => a.2 ≤ b.2) → (∀ p ∈ ps, p.2 ∈ ds ∨ ∀ d ∈ ds, d < p.2) →
    fillGroups (ds.map (fun d => (d, (ps.map Prod.snd).count d))) (ps.map Prod.fst)
      = .ok (ds.map (fun d => HaloRec.mk d ((ps.filter (fun p => decide (p.2 = d))).map Prod.fst)))
  | [], ps, _, _, _ => rfl
  | d :: ds, ps, hd, hp, hm => by
    obtain ⟨hd1, hd2⟩ := List.pairwise_cons.mp hd
    have hmin : ∀ p ∈ ps, d ≤ p.2 := by
      intro p hp
      rcases hm p hp with h | h
      · rcases List.mem_cons.mp h with h | h
        · omega
        · have := hd1 _ h; omega
      · have := h d (by simp); omega
    have e := min_split Prod.snd d ps hp hmin
    obtain ⟨A, hA⟩ : ∃ A, A = ps.filter (fun x => decide (x.2 = d)) := ⟨_, rfl⟩
    obtain ⟨B, hB⟩ : ∃ B, B = ps.filter (fun x => decide (d < x.2)) := ⟨_, rfl⟩
    rw [← hA, ← hB] at e
    have hcount : (ps.map Prod.snd).count d = A.length := by
      rw [hA, snd_count]
    have hother : ∀ d' ∈ ds, ps.filter (fun x => decide (x.2 = d')) = B.filter (fun x => decide (x.2 = d')) := by
      intro d' hd'
      rw [hB, List.filter_filter]
      apply List.filter_congr
      intro x _
      have := hd1 d' hd'
      rw [Bool.eq_iff_iff]
      simp only [Bool.and_eq_true, decide_eq_true_eq]
      omega
    have hcount' : ∀ d' ∈ ds, (ps.map Prod.snd).count d' = (B.map Prod.snd).count d' := by
      intro d' hd'
      have := congrArg List.length (hother d' hd')
      rw [snd_count, snd_count]
      exact this
    have hBs : B.Pairwise (fun a b => a.2 ≤ b.2) := by rw [hB]; exact hp.sublist List.filter_sublist
    have ih := fillGroups_ok ds B hd2 hBs (by
      intro p hp
      rw [hB] at hp
      obtain ⟨hp1, hp2⟩ := List.mem_filter.mp hp
      have hp2 := of_decide_eq_true hp2
      rcases hm p hp1 with h | h
      · rcases List.mem_cons.mp h with h | h
        · omega
        · exact Or.inl h
      · exact Or.inr (fun d hd => h d (by simp [hd])))
    have e1 : ds.map (fun d => (d, (ps.map Prod.snd).count d)) = ds.map (fun d => (d, (B.map Prod.snd).count d)) :=
      List.map_congr_left (fun d' hd' => by rw [hcount' d' hd'])
    have e2 : ds.map (fun d => HaloRec.mk d ((ps.filter (fun p => decide (p.2 = d))).map Prod.fst))
        = ds.map (fun d => HaloRec.mk d ((B.filter (fun p => decide (p.2 = d))).map Prod.fst)) :=
      List.map_congr_left (fun d' hd' => by rw [hother d' hd'])
    have e3 : ps.map Prod.fst = A.map Prod.fst ++ B.map Prod.fst := by rw [e, List.map_append]
    rw [List.map_cons, List.map_cons, fillGroups, hcount, e1, e2, ← hA, e3, if_pos (by simp),
      List.drop_left' (by simp), ih, Outcome.bind_ok, List.take_left' (by simp)]

theorem checkHosts_ok (hs : List Int) (hb : ∀ h ∈ hs, 0 ≤ h ∧ h ≤ nullGroupId) : checkHosts hs = .ok () := by
  unfold checkHosts
  split
  · rename_i a b h1 h2
    rw [if_pos ⟨(hb b (List.mem_of_getLast? h2)).2, (hb a (List.mem_of_head? h1)).1⟩]
  · rfl

/-- The groups of one rank. -/
theorem localGroups_ok {sort : List (α × Int) → List (α × Int)} (hsort : SortBySpec Prod.snd sort)
    (ps : List (α × Int)) (hb : ∀ p ∈ ps, 0 ≤ p.2 ∧ p.2 ≤ nullGroupId) :
    ∃ ds : List Int, localGroups sort ps
        = .ok (ds.map (fun d => HaloRec.mk d (((sort ps).filter (fun p => decide (p.2 = d))).map Prod.fst))) ∧
      ds.Pairwise (· < ·) ∧ ∀ d, d ∈ ds ↔ (∃ p ∈ ps, p.2 = d) ∧ d < nullGroupId := by
  have hp := hsort.perm ps
  have hs := hsort.sorted ps
  have hb' : ∀ h ∈ (sort ps).map Prod.snd, 0 ≤ h ∧ h ≤ nullGroupId := by
    intro h hh
    obtain ⟨p, hp1, rfl⟩ := List.mem_map.mp hh
    exact hb p (hp.mem_iff.mp hp1)
  have hs' : ((sort ps).map Prod.snd).Pairwise (· ≤ ·) := by rw [List.pairwise_map]; exact hs
  obtain ⟨ds, h1, h2, h3⟩ := countGroups_ok _ hs' (fun h hh => (hb' h hh).2)
  refine ⟨ds, ?_, h2, ?_⟩
  · unfold localGroups
    simp only
    rw [checkHosts_ok _ hb', Outcome.bind_ok, h1, Outcome.bind_ok]
    apply fillGroups_ok ds (sort ps) h2 hs
    intro p hp
    by_cases hn : p.2 < nullGroupId
    · exact Or.inl ((h3 _).mpr ⟨List.mem_map.mpr ⟨p, hp, rfl⟩, hn⟩)
    · exact Or.inr (fun d hd => by have := ((h3 d).mp hd).2; omega)
  · intro d
    rw [h3, List.mem_map]
    constructor
    · rintro ⟨⟨p, a, b⟩, c⟩; exact ⟨⟨p, hp.mem_iff.mp a, b⟩, c⟩
    · rintro ⟨⟨p, a, b⟩, c⟩; exact ⟨⟨p, hp.mem_iff.mpr a, b⟩, c⟩

/-! ### Deciding where the groups go -/

theorem idOffsets_run (a : Int) : ∀ (l1 l2 : List Int) (i : Nat), (∀ x ∈ l1, x = a) →
    idOffsets a i (l1 ++ l2) = idOffsets a (i + l1.length) l2
  | [], l2, i, _ => rfl
  | b :: l1, l2, i, h => by
    rw [List.cons_append, idOffsets, if_neg (by simp [h b]), idOffsets_run a l1 l2 (i + 1) (fun x hx => h x (by simp [hx])),
      List.length_cons]
    congr 1; omega

theorem idOffsets_head (a : Int) (i : Nat) (l : List Int) (h : ∀ x ∈ l, a < x) :
    ∃ rest, idOffsets a i l = i :: rest := by
  cases l with
  | nil => exact ⟨[], rfl⟩
  | cons b l =>
    have := h b (by simp)
    rw [idOffsets, if_pos (by omega)]
    exact ⟨_, rfl⟩

/-- The entry with its id replaced by the target. -/
def relabel (t : Int → Int) (h : HaloInfo I) : HaloInfo I := { h with id := t h.id }

theorem markTargets_ok (target : List I → Outcome Int) (t : Int → Int) :
    ∀ (n : Nat) (curr : Int) (pre rest : List (HaloInfo I)), rest.length ≤ n →
    rest.Pairwise (fun a b => a.id ≤ b.id) → (∀ h ∈ rest, curr < h.id) →
    (∀ h ∈ rest, target ((rest.filter (fun x => decide (x.id = h.id))).map HaloInfo.x) = .ok (t h.id)) →
    markTargets target (idOffsets curr pre.length (rest.map HaloInfo.id)) (pre ++ rest)
      = .ok (pre ++ rest.map (relabel t))
  | n, curr, pre, [], _, _, _, _ => by simp [idOffsets, markTargets]
  | 0, _, _, _ :: _, h, _, _, _ => by simp at h
  | n + 1, curr, pre, a :: rest, hn, hs, hc, ht => by
    have hmin : ∀ x ∈ a :: rest, a.id ≤ x.id := by
      intro x hx
      rcases List.mem_cons.mp hx with rfl | hx
      · omega
      · exact (List.pairwise_cons.mp hs).1 x hx
    have e := min_split HaloInfo.id a.id (a :: rest) hs hmin
    obtain ⟨A, hA⟩ : ∃ A, A = (a :: rest).filter (fun x => decide (x.id = a.id)) := ⟨_, rfl⟩
    obtain ⟨B, hB⟩ : ∃ B, B = (a :: rest).filter (fun x => decide (a.id < x.id)) := ⟨_, rfl⟩
    have hta := ht a (by simp)
    rw [← hA] at hta
    have hAid : ∀ x ∈ A, x.id = a.id := by
      intro x hx; rw [hA] at hx; exact of_decide_eq_true (List.mem_filter.mp hx).2
    have hBid : ∀ x ∈ B, a.id < x.id := by
      intro x hx; rw [hB] at hx; exact of_decide_eq_true (List.mem_filter.mp hx).2
    have hBm : ∀ x ∈ B, x ∈ a :: rest := by
      intro x hx; rw [hB] at hx; exact (List.mem_filter.mp hx).1
    have hAc : A = a :: A.tail := by
      rw [hA, List.filter_cons_of_pos (by simp)]; rfl
    have hBlen : B.length ≤ n := by
      have h1 := congrArg List.length e
      rw [← hA, ← hB, List.length_append, hAc] at h1
      simp only [List.length_cons] at h1 hn
      omega
    have hBs : B.Pairwise (fun a b => a.id ≤ b.id) := by rw [hB]; exact hs.sublist List.filter_sublist
    have hBt : ∀ h ∈ B, target ((B.filter (fun x => decide (x.id = h.id))).map HaloInfo.x) = .ok (t h.id) := by
      intro h hh
      rw [← ht h (hBm h hh)]
      congr 2
      rw [hB, List.filter_filter]
      apply List.filter_congr
      intro x _
      have := hBid h hh
      rw [Bool.eq_iff_iff]
      simp only [Bool.and_eq_true, decide_eq_true_eq]
      omega
    rw [e, ← hA, ← hB]
    have hoff : idOffsets curr pre.length ((A ++ B).map HaloInfo.id)
        = pre.length :: idOffsets a.id (pre.length + A.length) (B.map HaloInfo.id) := by
      rw [hAc, List.cons_append, List.map_cons, idOffsets, if_pos (by have := hc a (by simp); omega), List.map_append,
        idOffsets_run a.id _ _ _ (by
          intro x hx
          obtain ⟨y, hy, rfl⟩ := List.mem_map.mp hx
          exact hAid y (by rw [hAc]; simp [hy])), List.length_map, List.length_cons]
      congr 2
      omega
    obtain ⟨tl, htl⟩ := idOffsets_head a.id (pre.length + A.length) (B.map HaloInfo.id) (by
      intro x hx
      obtain ⟨y, hy, rfl⟩ := List.mem_map.mp hx
      exact hBid y hy)
    have ih := markTargets_ok target t n a.id (pre ++ A.map (relabel t)) B hBlen hBs hBid hBt
    rw [List.length_append, List.length_map, htl] at ih
    rw [hoff, htl, markTargets]
    have hsl : slice (pre ++ (A ++ B)) pre.length (pre.length + A.length - pre.length) = .ok A := by
      unfold slice
      rw [if_pos (by simp), List.drop_left' rfl, Nat.add_sub_cancel_left, List.take_left' rfl]
    rw [hsl, Outcome.bind_ok, hta, Outcome.bind_ok]
    have hrel : A.map (fun h => { h with id := t a.id }) = A.map (relabel t) :=
      List.map_congr_left (fun x hx => by rw [relabel, hAid x hx])
    rw [hrel, ← List.append_assoc, writeAt_mid _ _ _ _ (by simp), Outcome.bind_ok, ih]
    simp

theorem sorted_blocks {β : Type} {P : Nat} (t : β → Fin P) (L : List β)
    (hs : L.Pairwise (fun x y => (t x).val ≤ (t y).val)) :
    (List.ofFn (fun r => L.filter (fun h => decide (t h = r)))).flatten = L := by
  have h : ∀ k, k ≤ P → ((List.range k).map (fun r => L.filter (fun h => decide ((t h).val = r)))).flatten
      = L.filter (fun h => decide ((t h).val < k)) := by
    intro k
    induction k with
    | zero => simp
    | succ k ih =>
      intro hk
      rw [List.range_succ, List.map_append, List.flatten_append, ih (by omega)]
      have := sorted_split (fun x => (t x).val) k (L.filter (fun h => decide ((t h).val < k + 1)))
        (hs.sublist List.filter_sublist)
      rw [this, List.filter_filter, List.filter_filter]
      simp only [List.map_cons, List.map_nil, List.flatten_cons, List.flatten_nil, List.append_nil]
      congr 1
      · apply List.filter_congr
        intro x _
        rw [Bool.eq_iff_iff]; simp; omega
      · apply List.filter_congr
        intro x _
        rw [Bool.eq_iff_iff]; simp; omega
  have h1 := h P (Nat.le_refl _)
  have e : List.ofFn (fun r : Fin P => L.filter (fun h => decide (t h = r)))
      = (List.range P).map (fun r => L.filter (fun h => decide ((t h).val = r))) := by
    apply List.ext_getElem
    · simp
    · intro i a b
      simp only [List.getElem_ofFn, List.getElem_map, List.getElem_range]
      apply List.filter_congr
      intro x _
      rw [Bool.eq_iff_iff]
      simp [Fin.ext_iff]
  rw [e, h1, List.filter_eq_self]
  intro x _
  simp

theorem le_foldl_max (l : List Int) (a : Int) : a ≤ l.foldl max a ∧ ∀ x ∈ l, x ≤ l.foldl max a := by
  induction l generalizing a with
  | nil => simp
  | cons b l ih =>
    obtain ⟨h1, h2⟩ := ih (max a b)
    rw [List.foldl_cons]
    refine ⟨by omega, ?_⟩
    intro x hx
    rcases List.mem_cons.mp hx with rfl | hx
    · omega
    · exact h2 x hx

theorem zipIdx_map_fst' {β γ : Type} (f : β → γ) (L : List β) :
    L.zipIdx.map (fun p => (f p.1, p.2)) = (L.map f).zipIdx := by
  rw [List.zipIdx_map]; rfl

theorem decideApostle_ok {P : Nat} (hP : 0 < P) {sortId sortOrder : List (HaloInfo I) → List (HaloInfo I)}
    (h1 : SortBySpec HaloInfo.id sortId) (h2 : SortBySpec (fun h => (h.order : Int)) sortOrder)
    (target : List I → Outcome Int) (ht : ∀ xs, xs ≠ [] → ∃ r : Fin P, target xs = .ok (r.val : Int))
    (infos : Fin P → List (Int × I)) (hs : ∀ s, (infos s).Pairwise (fun a b => a.1 < b.1))
    (h0 : ∀ s, ∀ x ∈ infos s, 0 ≤ x.1) :
    ∃ t : Int → Fin P, decideApostle sortId sortOrder target infos
        = .ok (fun s => (infos s).zipIdx.map (fun p => (((t p.1.1).val : Int), p.2))) ∧
      ∀ s, ∀ x ∈ infos s, ∃ L, L.Perm (((List.ofFn infos).flatten.filter (fun y => decide (y.1 = x.1))).map Prod.snd) ∧
        target L = .ok ((t x.1).val : Int) := by
  classical
  -- the divisor
  obtain ⟨maxId, hmax⟩ : ∃ m, m = ((List.finRange P).map
    (fun s => lastId (infos s))).foldl max 0 + 1 := ⟨_, rfl⟩
  have hmax1 : 1 ≤ maxId := by rw [hmax]; have := (le_foldl_max ((List.finRange P).map
    (fun s => lastId (infos s))) 0).1; omega
  have hid : ∀ s, ∀ x ∈ infos s, x.1 < maxId := by
    intro s x hx
    have hm := (le_foldl_max ((List.finRange P).map
      (fun s => lastId (infos s))) 0).2
    rw [← Int.sub_eq_iff_eq_add.mpr hmax.symm.symm] at hm
    have := hm _ (List.mem_map.mpr ⟨s, List.mem_finRange s, rfl⟩)
    unfold lastId at this
    cases hl : (infos s).getLast? with
    | none => rw [List.getLast?_eq_none_iff] at hl; rw [hl] at hx; simp at hx
    | some y =>
      rw [hl] at this
      simp only at this
      obtain ⟨l, hl'⟩ := List.getLast?_eq_some_iff.mp hl
      rw [hl'] at hx
      rcases List.mem_append.mp hx with hx | hx
      · have hp := hs s
        rw [hl', List.pairwise_append] at hp
        have := hp.2.2 x hx y (by simp)
        omega
      · simp at hx; subst hx; omega
  obtain ⟨ndiv, hnd⟩ : ∃ n, n = maxId.tdiv P + (if maxId.tmod P ≠ 0 then 1 else 0) := ⟨_, rfl⟩
  have hdm := Int.tdiv_mul_add_tmod maxId P
  have hPi : (0 : Int) < P := by omega
  have hmod0 : 0 ≤ maxId.tmod P := Int.tmod_nonneg _ (by omega)
  have hmod1 : maxId.tmod P < P := Int.tmod_lt_of_pos _ hPi
  have hdiv0 : 0 ≤ maxId.tdiv P := Int.tdiv_nonneg (by omega) (by omega)
  have hmul : maxId ≤ ndiv * P := by
    rw [hnd]
    split
    · rw [Int.add_mul]; omega
    · rename_i h; push Not at h; rw [Int.add_mul]; omega
  have hnd1 : 0 < ndiv := by
    rcases Int.lt_or_le 0 ndiv with h | h
    · exact h
    · have : ndiv * P ≤ 0 := Int.mul_nonpos_of_nonpos_of_nonneg h (by omega)
      omega
  have hrange : ∀ s, ∀ x ∈ infos s, 0 ≤ x.1.tdiv ndiv ∧ (x.1.tdiv ndiv).toNat < P := by
    intro s x hx
    have a := h0 s x hx
    have b := hid s x hx
    rw [Int.tdiv_eq_ediv_of_nonneg a]
    have c : x.1 / ndiv < P := by
      rw [Int.ediv_lt_iff_lt_mul hnd1, Int.mul_comm]
      omega
    have d : 0 ≤ x.1 / ndiv := Int.ediv_nonneg a (by omega)
    omega
  let dest : Int × I → Fin P := fun x => if h : (x.1.tdiv ndiv).toNat < P then ⟨_, h⟩ else ⟨0, hP⟩
  have hdest : ∀ s, ∀ x ∈ infos s, ((dest x).val : Int) = x.1.tdiv ndiv := by
    intro s x hx
    obtain ⟨a, b⟩ := hrange s x hx
    simp only [dest]
    rw [dif_pos b]
    exact Int.toNat_of_nonneg a
  have hmono : ∀ s, (infos s).Pairwise (fun x y => (dest x).val ≤ (dest y).val) := by
    intro s
    refine (hs s).imp_of_mem ?_
    intro x y hx hy hxy
    have a := hdest s x hx
    have b := hdest s y hy
    rw [Int.tdiv_eq_ediv_of_nonneg (h0 s x hx)] at a
    rw [Int.tdiv_eq_ediv_of_nonneg (h0 s y hy)] at b
    have c : x.1 / ndiv ≤ y.1 / ndiv := Int.ediv_le_ediv hnd1 (by omega)
    omega
  let pick : Fin P → Fin P → List (Int × I) := fun s r => (infos s).filter (fun x => decide (dest x = r))
  have hsizes : ∀ s, tally P ((infos s).map (fun h => (h.1.tdiv ndiv, 1))) (fun _ => 0)
      = .ok (fun r => (pick s r).length) := by
    intro s
    have e : (infos s).map (fun h => (h.1.tdiv ndiv, 1)) = (infos s).map (fun h => (((dest h).val : Int), 1)) :=
      List.map_congr_left (fun x hx => by rw [hdest s x hx])
    rw [e, tally_ok dest (fun _ => 1)]
    congr 1
    funext r
    simp [pick]
  have hblock : ∀ s r, blockFrom infos (fun s r => (pick s r).length) s r = .ok (pick s r) := by
    intro s r
    unfold blockFrom
    rw [disps_ok, Outcome.bind_ok]
    have := sorted_slice dest (infos s) (hmono s) r id
    simpa using this
  -- what rank r holds
  let got : Fin P → List (Int × I) := fun r => (List.ofFn (fun s => pick s r)).flatten
  let all : Fin P → List (HaloInfo I) := fun r => (got r).zipIdx.map (fun p => HaloInfo.mk p.1.1 p.1.2 p.2)
  let sel : Fin P → Int → List I := fun r id => ((sortId (all r)).filter (fun x => decide (x.id = id))).map HaloInfo.x
  have hallid : ∀ r, (all r).map (fun h => (h.id, h.x)) = got r := by
    intro r
    simp only [all, List.map_map, Function.comp_def]
    exact List.zipIdx_map_fst 0 (got r)
  have hgot : ∀ r x, x ∈ got r → dest x = r ∧ ∃ s, x ∈ infos s := by
    intro r x hx
    obtain ⟨l, hl, hx⟩ := List.mem_flatten.mp hx
    obtain ⟨s, rfl⟩ := List.mem_ofFn.mp hl
    obtain ⟨a, b⟩ := List.mem_filter.mp hx
    exact ⟨of_decide_eq_true b, s, a⟩
  have hdestid : ∀ x y : Int × I, x.1 = y.1 → dest x = dest y := by
    intro x y h; simp only [dest, h]
  let t : Int → Fin P := fun id =>
    if h : ∃ r : Fin P, ∃ x : Int × I, x.1 = id ∧ target (sel (dest x) id) = .ok (r.val : Int) then h.choose else ⟨0, hP⟩
  have hsel : ∀ r x, x ∈ got r → target (sel r x.1) = .ok ((t x.1).val : Int) := by
    intro r x hx
    have hd := (hgot r x hx).1
    have hne : sel r x.1 ≠ [] := by
      intro hnil
      have hmem : ∃ h ∈ all r, h.id = x.1 := by
        rw [← hallid r] at hx
        obtain ⟨h, hh, he⟩ := List.mem_map.mp hx
        exact ⟨h, hh, by rw [← he]⟩
      obtain ⟨h, hh, he⟩ := hmem
      have : h.x ∈ sel r x.1 := List.mem_map.mpr ⟨h, List.mem_filter.mpr ⟨(h1.perm _).mem_iff.mpr hh, by simpa using he⟩, rfl⟩
      rw [hnil] at this
      simp at this
    obtain ⟨r', hr'⟩ := ht _ hne
    have hex : ∃ r' : Fin P, ∃ y : Int × I, y.1 = x.1 ∧ target (sel (dest y) x.1) = .ok (r'.val : Int) :=
      ⟨r', x, rfl, by rw [hd]; exact hr'⟩
    simp only [t]
    rw [dif_pos hex]
    obtain ⟨y, hy1, hy2⟩ := hex.choose_spec
    rw [hdestid y x hy1, hd] at hy2
    exact hy2
  have hmark : ∀ r, (do
      let all := ((List.ofFn (fun s => pick s r)).flatten).zipIdx.map (fun p : (Int × I) × Nat => HaloInfo.mk p.1.1 p.1.2 p.2)
      let byId := sortId all
      let done ← markTargets target (idOffsets (-1) 0 (byId.map HaloInfo.id)) byId
      Outcome.ok (sortOrder done)) = .ok ((all r).map (relabel (fun id => ((t id).val : Int)))) := by
    intro r
    have hm := markTargets_ok target (fun id => ((t id).val : Int)) (sortId (all r)).length (-1) [] (sortId (all r))
      (Nat.le_refl _) (h1.sorted _) (by
        intro h hh
        have hh := (h1.perm _).mem_iff.mp hh
        have : (h.id, h.x) ∈ got r := by rw [← hallid r]; exact List.mem_map.mpr ⟨h, hh, rfl⟩
        obtain ⟨_, s, hs'⟩ := hgot r _ this
        have := h0 s _ hs'
        simp only at this
        omega) (by
        intro h hh
        have hh := (h1.perm _).mem_iff.mp hh
        have : (h.id, h.x) ∈ got r := by rw [← hallid r]; exact List.mem_map.mpr ⟨h, hh, rfl⟩
        exact hsel r _ this)
    simp only [List.nil_append, List.length_nil] at hm
    show (do
      let done ← markTargets target (idOffsets (-1) 0 ((sortId (all r)).map HaloInfo.id)) (sortId (all r))
      Outcome.ok (sortOrder done)) = _
    rw [hm, Outcome.bind_ok]
    congr 1
    have hord : ((all r).map (relabel (fun id => ((t id).val : Int)))).Pairwise (fun a b => a.order < b.order) := by
      rw [List.pairwise_map]
      have : ((all r).map HaloInfo.order).Pairwise (· < ·) := by
        have : (all r).map HaloInfo.order = List.range' 0 (got r).length := by
          simp only [all, List.map_map, Function.comp_def]
          exact List.zipIdx_map_snd 0 (got r)
        rw [this]
        exact List.pairwise_lt_range'
      rw [List.pairwise_map] at this
      exact this
    have hperm : (sortOrder ((sortId (all r)).map (relabel (fun id => ((t id).val : Int))))).Perm
        ((all r).map (relabel (fun id => ((t id).val : Int)))) :=
      (h2.perm _).trans ((h1.perm _).map _)
    refine hperm.eq_of_pairwise (le := fun a b => (a.order : Int) ≤ b.order) ?_ (h2.sorted _) (hord.imp (fun h => by omega))
    intro a b ha hb hab hba
    have ha' := hperm.mem_iff.mp ha
    have he : a.order = b.order := by omega
    have hnd : (((all r).map (relabel (fun id => ((t id).val : Int)))).map HaloInfo.order).Nodup := by
      rw [List.Nodup, List.pairwise_map]; exact hord.imp (fun h => by omega)
    exact List.inj_on_of_nodup_map hnd ha' hb he
  let tag : Int × I → Int := fun x => ((t x.1).val : Int)
  have gen1 : ∀ L : List (HaloInfo I), L.map (HaloInfo.id ∘ relabel (fun id => ((t id).val : Int)))
      = (L.map (fun h => (h.id, h.x))).map tag := fun L => by rw [List.map_map]; rfl
  have gen2 : ∀ (L : List (HaloInfo I)) (k : Int), (L.filter (fun y => decide (y.id = k))).map HaloInfo.x
      = (((L.map (fun h => (h.id, h.x))).filter (fun y => decide (y.1 = k))).map Prod.snd) :=
    fun L k => by rw [List.filter_map, List.map_map]; rfl
  have hback : ∀ s r, blockFrom (fun r => (all r).map (relabel (fun id => ((t id).val : Int))))
      (fun r s => (pick s r).length) r s
      = .ok ((((all r).map (relabel (fun id => ((t id).val : Int)))).drop (offOf (fun s => (pick s r).length) s)).take
          (pick s r).length) := by
    intro s r
    unfold blockFrom
    rw [disps_ok, Outcome.bind_ok]
    unfold slice
    rw [if_pos]
    have := offOf_le_total (fun s => (pick s r).length) s
    have hl : (all r).length = (List.ofFn (fun s => (pick s r).length)).sum := by
      simp only [all, got, List.length_map, List.length_zipIdx, List.length_flatten, List.map_ofFn]
      rfl
    rw [List.length_map, hl]
    exact this
  have hbackid : ∀ s r, ((((all r).map (relabel (fun id => ((t id).val : Int)))).drop (offOf (fun s => (pick s r).length) s)).take
          (pick s r).length).map HaloInfo.id = (pick s r).map tag := by
    intro s r
    rw [List.map_take, List.map_drop, List.map_map]
    have e : (all r).map (HaloInfo.id ∘ relabel (fun id => ((t id).val : Int)))
        = (List.ofFn (fun s => (pick s r).map tag)).flatten := by
      have : (all r).map (HaloInfo.id ∘ relabel (fun id => ((t id).val : Int))) = ((all r).map (fun h => (h.id, h.x))).map tag := gen1 _
      rw [this, hallid]
      simp only [got, List.map_flatten, List.map_ofFn]
      rfl
    rw [e]
    exact drop_take_ofFn (fun s => (pick s r).map tag) (fun s => (pick s r).length) (fun s => by simp) s
  refine ⟨t, ?_, ?_⟩
  · unfold decideApostle
    simp only
    rw [← hmax, ← hnd, if_neg (by omega), allRanks_ok _ _ hsizes, Outcome.bind_ok,
      allRanks_ok _ (fun r => fun s => pick s r) (fun r => allRanks_ok _ _ (fun s => hblock s r)), Outcome.bind_ok,
      allRanks_ok _ _ hmark, Outcome.bind_ok,
      allRanks_ok _ _ (fun s => allRanks_ok _ _ (fun r => hback s r)), Outcome.bind_ok]
    congr 1
    funext s
    rw [zipIdx_map_fst' HaloInfo.id, zipIdx_map_fst' (fun x : Int × I => ((t x.1).val : Int))]
    congr 1
    rw [List.map_flatten, List.map_ofFn]
    have e : (List.map HaloInfo.id ∘ fun r => (((all r).map (relabel (fun id => ((t id).val : Int)))).drop (offOf (fun s => (pick s r).length) s)).take
          (pick s r).length) = fun r => (pick s r).map tag := by
      funext r; exact hbackid s r
    rw [e]
    have := congrArg (List.map tag) (sorted_blocks dest (infos s) (hmono s))
    rw [List.map_flatten, List.map_ofFn] at this
    exact this
  · intro s x hx
    have hxg : x ∈ got (dest x) := by
      refine List.mem_flatten.mpr ⟨pick s (dest x), List.mem_ofFn.mpr ⟨s, rfl⟩, List.mem_filter.mpr ⟨hx, by simp⟩⟩
    refine ⟨sel (dest x) x.1, ?_, hsel _ x hxg⟩
    simp only [sel]
    refine (((h1.perm _).filter _).map _).trans (List.Perm.of_eq ?_)
    rw [gen2, hallid]
    simp only [got, List.filter_flatten, List.map_ofFn]
    congr 3
    funext s'
    simp only [Function.comp, pick, List.filter_filter]
    apply List.filter_congr
    intro y _
    rw [Bool.eq_iff_iff]
    simp only [Bool.and_eq_true, decide_eq_true_eq]
    exact ⟨fun h => h.1, fun h => ⟨h, hdestid y x h⟩⟩

/-- A permutation of the image of a list is the image of a permutation. -/
theorem perm_map_lift {β γ : Type} (f : β → γ) {l : List β} {L : List γ} (h : L.Perm (l.map f)) :
    ∃ X : List β, X.Perm l ∧ X.map f = L := by
  obtain ⟨n, hn⟩ : ∃ n, n = L.length := ⟨_, rfl⟩
  induction n generalizing l L with
  | zero =>
    have : L = [] := List.length_eq_zero_iff.mp hn.symm
    subst this
    have := List.map_eq_nil_iff.mp h.symm.eq_nil
    subst this
    exact ⟨[], List.Perm.refl _, rfl⟩
  | succ n ih =>
    cases L with
    | nil => simp at hn
    | cons a L =>
      have ha : a ∈ l.map f := h.mem_iff.mp (by simp)
      obtain ⟨b, hb, rfl⟩ := List.mem_map.mp ha
      obtain ⟨l1, l2, rfl⟩ := List.append_of_mem hb
      have h' : L.Perm ((l1 ++ l2).map f) := by
        rw [List.map_append, List.map_cons] at h
        rw [List.map_append]
        exact (h.trans List.perm_middle).cons_inv
      obtain ⟨X, hX1, hX2⟩ := ih h' (by simpa using hn)
      exact ⟨b :: X, (hX1.cons b).trans List.perm_middle.symm, by rw [List.map_cons, hX2]⟩

/-! ### Merging -/

theorem mergeInto_ok : ∀ (hs : List (HaloRec Int α)) (h1 : HaloRec Int α),
    (h1 :: hs).Pairwise (fun a b => a.shell ≤ b.shell) →
    (mergeInto h1 hs).Pairwise (fun a b => a.shell < b.shell) ∧
    (∀ h ∈ mergeInto h1 hs, h1.shell ≤ h.shell ∧ (∃ h' ∈ h1 :: hs, h'.shell = h.shell) ∧
      h.particles = ((h1 :: hs).filter (fun x => decide (x.shell = h.shell))).flatMap HaloRec.particles) ∧
    ∀ h' ∈ h1 :: hs, ∃ h ∈ mergeInto h1 hs, h.shell = h'.shell
  | [], h1, _ => by simp [mergeInto]
  | h2 :: hs, h1, hp => by
    obtain ⟨p1, p2⟩ := List.pairwise_cons.mp hp
    obtain ⟨p3, p4⟩ := List.pairwise_cons.mp p2
    rw [mergeInto]
    by_cases he : h2.shell = h1.shell
    · rw [if_pos he]
      obtain ⟨a, b, c⟩ := mergeInto_ok hs (HaloRec.mk h1.shell (h1.particles ++ h2.particles))
        (List.pairwise_cons.mpr ⟨fun x hx => p1 x (by simp [hx]), p4⟩)
      refine ⟨a, ?_, ?_⟩
      · intro h hh
        obtain ⟨b1, ⟨h', b2, b3⟩, b4⟩ := b h hh
        refine ⟨b1, ?_, ?_⟩
        · rcases List.mem_cons.mp b2 with rfl | b2
          · exact ⟨h1, by simp, b3⟩
          · exact ⟨h', by simp [b2], b3⟩
        · rw [b4]
          by_cases hk : h1.shell = h.shell
          · rw [List.filter_cons_of_pos (by simpa using hk), List.filter_cons_of_pos (by simpa using hk),
              List.filter_cons_of_pos (by simp; omega)]
            simp
          · rw [List.filter_cons_of_neg (by simpa using hk), List.filter_cons_of_neg (by simpa using hk),
              List.filter_cons_of_neg (by simp; omega)]
      · intro h' hh'
        rcases List.mem_cons.mp hh' with rfl | hh'
        · exact c (HaloRec.mk h'.shell (h'.particles ++ h2.particles)) List.mem_cons_self
        · rcases List.mem_cons.mp hh' with rfl | hh'
          · rw [he]; exact c (HaloRec.mk h1.shell (h1.particles ++ h'.particles)) List.mem_cons_self
          · exact c h' (by simp [hh'])
    · rw [if_neg he]
      have hlt : h1.shell < h2.shell := by have := p1 h2 (by simp); omega
      obtain ⟨a, b, c⟩ := mergeInto_ok hs h2 p2
      refine ⟨?_, ?_, ?_⟩
      · rw [List.pairwise_cons]
        exact ⟨fun h hh => by have := (b h hh).1; omega, a⟩
      · intro h hh
        rcases List.mem_cons.mp hh with rfl | hh
        · refine ⟨by omega, ⟨h, by simp, rfl⟩, ?_⟩
          rw [List.filter_cons_of_pos (by simp), List.filter_eq_nil_iff.mpr]
          · simp
          · intro x hx
            rcases List.mem_cons.mp hx with rfl | hx
            · simp; omega
            · have := p3 x hx; simp; omega
        · obtain ⟨b1, ⟨h', b2, b3⟩, b4⟩ := b h hh
          refine ⟨by omega, ⟨h', by simp [List.mem_cons.mp b2], b3⟩, ?_⟩
          rw [b4, List.filter_cons_of_neg (a := h1) (by simp; omega)]
      · intro h' hh'
        rcases List.mem_cons.mp hh' with rfl | hh'
        · exact ⟨h', by simp, rfl⟩
        · obtain ⟨h, hh, e⟩ := c h' hh'
          exact ⟨h, by simp [hh], e⟩

theorem mergeHalos_ok {sort : List (HaloRec Int α) → List (HaloRec Int α)} (hsort : SortBySpec HaloRec.shell sort)
    (hs : List (HaloRec Int α)) :
    (mergeHalos sort hs).Pairwise (fun a b => a.shell < b.shell) ∧
    (∀ h ∈ mergeHalos sort hs, (∃ h' ∈ hs, h'.shell = h.shell) ∧
      h.particles.Perm ((hs.filter (fun x => decide (x.shell = h.shell))).flatMap HaloRec.particles)) ∧
    ∀ h' ∈ hs, ∃ h ∈ mergeHalos sort hs, h.shell = h'.shell := by
  have hp := hsort.perm hs
  unfold mergeHalos
  split
  · rename_i hnil
    rw [hnil] at hp
    have := hp.symm.eq_nil
    subst this
    simp
  · rename_i h1 tl hcons
    have hso := hsort.sorted hs
    rw [hcons] at hp hso
    obtain ⟨a, b, c⟩ := mergeInto_ok tl h1 hso
    refine ⟨a, ?_, fun h' hh' => c h' (hp.mem_iff.mpr hh')⟩
    intro h hh
    obtain ⟨_, ⟨h', b2, b3⟩, b4⟩ := b h hh
    refine ⟨⟨h', hp.mem_iff.mp b2, b3⟩, ?_⟩
    rw [b4]
    exact (hp.filter _).flatMap_right _

/-! ### Combining centres -/

section Reduce
variable {K : Type} [Field K] [LinearOrder K] [IsStrictOrderedRing K] [FloorRing K]

theorem reduce_free (B : K) (x : Fin 3 → K) (ps : List (Weighted K)) :
    reduceHaloPosition false B x ps = averagePosition false B x ps := by
  match ps with
  | [] => rfl
  | [p] => rfl
  | p :: q :: ps => simp [reduceHaloPosition, averagePosition]

theorem positionModulus_same (x B : K) (hB : 0 < B) : ∃ k : ℤ, positionModulus x B = x + k * B := by
  unfold positionModulus
  split
  · exact ⟨0, by simp⟩
  · refine ⟨-⌊x / B⌋, ?_⟩
    simp only
    rw [sub_mul, div_mul_cancel₀ _ hB.ne']
    push_cast
    ring

theorem reduce_box (B : K) (hB : 0 < B) {x : Fin 3 → K} (ps : List (Weighted K)) :
    SameModBox B (averagePosition true B x ps).2 (reduceHaloPosition true B x ps).2 := by
  match ps with
  | [] => exact fun j => ⟨0, by simp [averagePosition, reduceHaloPosition]⟩
  | [p] => exact fun j => ⟨0, by simp [averagePosition, reduceHaloPosition]⟩
  | p :: q :: ps =>
    intro j
    simp only [averagePosition, reduceHaloPosition, if_true]
    exact positionModulus_same _ _ hB

end Reduce

/-! ### Refusal -/

theorem allRanks_abort {β : Type} {P : Nat} (f : Fin P → Outcome β) (h : ∀ i, (∃ b, f i = .ok b) ∨ f i = .abort)
    (hb : ∃ i, f i = .abort) : allRanks P f = .abort := by
  induction P with
  | zero => obtain ⟨i, _⟩ := hb; exact i.elim0
  | succ P ih =>
    rw [allRanks]
    rcases h 0 with ⟨b, h0⟩ | h0
    · rw [h0, Outcome.bind_ok, ih (fun i => f i.succ) (fun i => h i.succ)]
      · rfl
      · obtain ⟨i, hi⟩ := hb
        rcases Fin.eq_zero_or_eq_succ i with rfl | ⟨k, rfl⟩
        · rw [h0] at hi; cases hi
        · exact ⟨k, hi⟩
    · rw [h0]; rfl

theorem localGroups_abort {sort : List (α × Int) → List (α × Int)} (hsort : SortBySpec Prod.snd sort)
    (ps : List (α × Int)) (hbad : ∃ p ∈ ps, nullGroupId < p.2) : localGroups sort ps = .abort := by
  obtain ⟨p, hp, hpn⟩ := hbad
  have hp' := (hsort.perm ps).mem_iff.mpr hp
  have hc : checkHosts ((sort ps).map Prod.snd) = .abort := by
    unfold checkHosts
    split
    · rename_i a b h1 h2
      rw [if_neg]
      rintro ⟨hb, _⟩
      obtain ⟨l, hl⟩ := List.getLast?_eq_some_iff.mp h2
      have hs : ((sort ps).map Prod.snd).Pairwise (· ≤ ·) := by rw [List.pairwise_map]; exact hsort.sorted _
      have hm : p.2 ∈ (sort ps).map Prod.snd := List.mem_map.mpr ⟨p, hp', rfl⟩
      rw [hl] at hs hm
      rcases List.mem_append.mp hm with hm | hm
      · have := (List.pairwise_append.mp hs).2.2 _ hm b (by simp)
        omega
      · simp at hm; omega
    · rename_i h1
      cases hx : sort ps with
      | nil => rw [hx] at hp'; simp at hp'
      | cons q qs =>
        exfalso
        rw [hx] at h1
        obtain ⟨z, hz⟩ : ∃ z, (List.map Prod.snd (q :: qs)).getLast? = some z :=
          ⟨_, List.getLast?_eq_some_getLast (by simp)⟩
        exact h1 q.2 z (by simp) hz
  unfold localGroups
  simp only
  rw [hc]
  rfl

end HBT
