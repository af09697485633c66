import Verif.Model.SnapList
import Verif.Spec.SnapList
import Verif.Lemmas.Origin
/-!
# C73: the list of snapshots made from a directory
-/
namespace HBT.Props
open HBT HBT.Model HBT.Spec
variable {K : Type}

/-- Stable sorting with decreasing keys, `sorted(…, key=…, reverse=True)`: equal ones stay in their order. -/
structure SortsDown [LinearOrder K] (sort : List (List Char × K) → List (List Char × K)) : Prop where
  perm : ∀ l, (sort l).Perm l
  sorted : ∀ l, (sort l).Pairwise (fun a b => b.2 ≤ a.2)
  stable : ∀ l z, (sort l).filter (fun x => decide (x.2 = z)) = l.filter (fun x => decide (x.2 = z))

theorem firstOfEach_sublist [DecidableEq K] : ∀ (l : List (List Char × K)) (seen : List K), (firstOfEach seen l).Sublist l
  | [], _ => List.Sublist.refl []
  | x :: l, seen => by
    rw [firstOfEach]
    split_ifs
    · exact (firstOfEach_sublist l seen).cons x
    · exact (firstOfEach_sublist l _).cons₂ x

theorem firstOfEach_spec [DecidableEq K] : ∀ (l : List (List Char × K)) (seen : List K),
    (∀ x ∈ l, x.2 ∉ seen → ∃ y ∈ firstOfEach seen l, y.2 = x.2) ∧ ((firstOfEach seen l).map Prod.snd).Nodup ∧ (∀ x ∈ firstOfEach seen l, x.2 ∉ seen)
  | [], _ => ⟨fun _ h => absurd h List.not_mem_nil, List.nodup_nil, fun _ h => absurd h List.not_mem_nil⟩
  | x :: l, seen => by
    rw [firstOfEach]
    split_ifs with hx
    · obtain ⟨h1, h2, h3⟩ := firstOfEach_spec l seen
      refine ⟨fun y hy hs => ?_, h2, h3⟩
      rcases List.mem_cons.1 hy with rfl | hy
      · exact absurd hx hs
      · exact h1 y hy hs
    · obtain ⟨h1, h2, h3⟩ := firstOfEach_spec l (x.2 :: seen)
      refine ⟨fun y hy hs => ?_, ?_, ?_⟩
      · by_cases he : y.2 = x.2
        · exact ⟨x, List.mem_cons_self, he.symm⟩
        · rcases List.mem_cons.1 hy with rfl | hy
          · exact absurd rfl he
          · obtain ⟨w, hw, e⟩ := h1 y hy (by rw [List.mem_cons, not_or]; exact ⟨he, hs⟩)
            exact ⟨w, List.mem_cons_of_mem _ hw, e⟩
      · rw [List.map_cons, List.nodup_cons]
        refine ⟨fun hm => ?_, h2⟩
        obtain ⟨y, hy, e⟩ := List.mem_map.1 hm
        exact h3 y hy (by rw [e]; exact List.mem_cons_self)
      · intro y hy
        rcases List.mem_cons.1 hy with rfl | hy
        · exact hx
        · exact fun h => h3 y hy (List.mem_cons_of_mem _ h)

/-- What is kept is the first of its key. -/
theorem firstOfEach_first [DecidableEq K] : ∀ (l : List (List Char × K)) (seen : List K) (x : List Char × K), x ∈ firstOfEach seen l →
    (l.filter (fun y => decide (y.2 = x.2))).head? = some x
  | [], _, _, h => by cases h
  | y :: l, seen, x, h => by
    rw [firstOfEach] at h
    split_ifs at h with hy
    · have hne : ¬ y.2 = x.2 := fun e => (firstOfEach_spec l seen).2.2 x h (by rw [← e]; exact hy)
      rw [List.filter_cons_of_neg (by simpa using hne)]
      exact firstOfEach_first l seen x h
    · rcases List.mem_cons.1 h with rfl | h
      · rw [List.filter_cons_of_pos (by simp)]
        rfl
      · have hne : ¬ y.2 = x.2 := fun e => (firstOfEach_spec l (y.2 :: seen)).2.2 x h (by rw [← e]; exact List.mem_cons_self)
        rw [List.filter_cons_of_neg (by simpa using hne)]
        exact firstOfEach_first l _ x h

variable {float : List Char → Option K}

/-- The names have redshifts `z`. -/
def HasRedshifts (float : List Char → Option K) (z : List Char → K) (l : List (List Char)) : Prop := ∀ s ∈ l, redshiftOf float s = .ok (z s)

theorem withRedshifts_ok {z : List Char → K} : ∀ {l : List (List Char)}, HasRedshifts float z l → withRedshifts float l = .ok (l.map (fun s => (s, z s)))
  | [], _ => rfl
  | s :: l, h => by
    rw [withRedshifts, h s List.mem_cons_self, Outcome.bind_ok, withRedshifts_ok (fun t ht => h t (List.mem_cons_of_mem _ ht)), Outcome.bind_ok]
    rfl

theorem withRedshifts_abort : ∀ {l : List (List Char)} {s : List Char}, s ∈ l → redshiftOf float s = .abort → withRedshifts float l = .abort
  | t :: l, s, h, e => by
    rw [withRedshifts]
    rcases List.mem_cons.1 h with rfl | h
    · rw [e]; rfl
    · have hz : (∃ z, redshiftOf float t = .ok z) ∨ redshiftOf float t = .abort := by
        unfold redshiftOf
        split
        · exact Or.inr rfl
        · split
          · exact Or.inr rfl
          · exact Or.inl ⟨_, rfl⟩
      rcases hz with ⟨z, hz⟩ | hz
      · rw [hz, Outcome.bind_ok, withRedshifts_abort h e]; rfl
      · rw [hz]; rfl

/-- What `clear_dup` gives: the first name of each redshift, in their order. -/
theorem clearDup_ok [DecidableEq K] {z : List Char → K} {l : List (List Char)} (h : HasRedshifts float z l) :
    ∃ r, clearDup float l = .ok r ∧ r.Sublist l ∧ OneOfEach z l r ∧ ∀ x ∈ r, (l.filter (fun y => decide (z y = z x))).head? = some x := by
  have hp : ∀ p ∈ firstOfEach [] (l.map (fun s => (s, z s))), p.2 = z p.1 := by
    intro p hp
    obtain ⟨s, _, rfl⟩ := List.mem_map.1 ((firstOfEach_sublist _ _).subset hp)
    rfl
  refine ⟨(firstOfEach [] (l.map (fun s => (s, z s)))).map Prod.fst, ?_, ?_, ⟨?_, ?_, ?_⟩, ?_⟩
  · rw [clearDup, withRedshifts_ok h, Outcome.bind_ok]
  · have := (firstOfEach_sublist (l.map (fun s => (s, z s))) []).map Prod.fst
    rwa [List.map_map, show (Prod.fst ∘ fun s => (s, z s)) = id from rfl, List.map_id] at this
  · intro x hx
    obtain ⟨p, hp', rfl⟩ := List.mem_map.1 hx
    obtain ⟨s, hs, rfl⟩ := List.mem_map.1 ((firstOfEach_sublist _ _).subset hp')
    exact hs
  · intro x hx
    obtain ⟨y, hy, e⟩ := (firstOfEach_spec (l.map (fun s => (s, z s))) []).1 (x, z x) (List.mem_map.2 ⟨x, hx, rfl⟩) List.not_mem_nil
    exact ⟨y.1, List.mem_map.2 ⟨y, hy, rfl⟩, by rw [← hp y hy, e]⟩
  · rw [List.map_map, List.map_congr_left (f := z ∘ Prod.fst) (g := Prod.snd) (fun p hp' => (hp p hp').symm)]
    exact (firstOfEach_spec _ _).2.1
  · intro x hx
    obtain ⟨p, hp', rfl⟩ := List.mem_map.1 hx
    have := firstOfEach_first _ _ p hp'
    rw [List.filter_map] at this
    rw [List.head?_map] at this
    have e : ((fun y : List Char × K => decide (y.2 = p.2)) ∘ fun s => (s, z s)) = fun y => decide (z y = z p.1) := by
      funext y
      show decide (z y = p.2) = decide (z y = z p.1)
      rw [hp p hp']
    rw [e] at this
    cases h1 : (l.filter (fun y => decide (z y = z p.1))).head? with
    | none => rw [h1] at this; cases this
    | some y =>
      rw [h1] at this
      injection this with this
      rw [← this]

section
variable [LinearOrder K] {sortNames : List (List Char) → List (List Char)} {sortDown : List (List Char × K) → List (List Char × K)} {usable : List Char → Bool}
  {dir : List (List Char)} {z : List Char → K}

/-- The directories with the given prefix that can be read and are not empty. -/
def Candidate (usable : List Char → Bool) (dir : List (List Char)) (pre : String) (s : List Char) : Prop := s ∈ dir ∧ pre.toList <+: s ∧ usable s = true

theorem mem_candDirs (hs : ∀ l, (sortNames l).Perm l) {pre : String} {s : List Char} : s ∈ candDirs sortNames usable pre.toList dir ↔ Candidate usable dir pre s := by
  unfold candDirs Candidate
  rw [List.mem_filter, (hs _).mem_iff, List.mem_filter, List.isPrefixOf_iff_prefix, and_assoc]

theorem least_of_first (hs : ∀ l, (sortNames l).Perm l) (ho : ∀ l, (sortNames l).Pairwise (· ≤ ·)) {pre : String} {r : List (List Char)}
    (f : ∀ x ∈ r, ((candDirs sortNames usable pre.toList dir).filter (fun y => decide (z y = z x))).head? = some x) :
    ∀ s ∈ r, ∀ t, Candidate usable dir pre t → z t = z s → s ≤ t := by
  intro s hm t ht e
  have hsort : ((candDirs sortNames usable pre.toList dir).filter (fun y => decide (z y = z s))).Pairwise (· ≤ ·) :=
    ((ho _).filter _).filter _
  have hmem : t ∈ (candDirs sortNames usable pre.toList dir).filter (fun y => decide (z y = z s)) :=
    List.mem_filter.2 ⟨(mem_candDirs hs).2 ht, decide_eq_true e⟩
  have hf := f s hm
  cases hl : (candDirs sortNames usable pre.toList dir).filter (fun y => decide (z y = z s)) with
  | nil => rw [hl] at hmem; cases hmem
  | cons u l =>
    rw [hl] at hf hmem hsort
    have hu : u = s := by simpa using hf
    subst hu
    rcases List.mem_cons.1 hmem with rfl | hmem
    · exact List.le_refl _
    · exact (List.pairwise_cons.1 hsort).1 t hmem

/-- C73. The list `snap` (and `snip`) has the directories `snapshot_*` (`snipshot_*`) that can be read and are not empty, in the order of their names,
one for each redshift, the first by name. The list `all` has one directory for each redshift of those, in the order of decreasing redshift, and prefers snapshots: a
`snipshot_*` is in it only if there is no `snapshot_*` of the same redshift. -/
theorem C73_lists (hs : ∀ l, (sortNames l).Perm l) (ho : ∀ l, (sortNames l).Pairwise (· ≤ ·)) (hd : SortsDown sortDown)
    (h : ∀ s, Candidate usable dir "snapshot_" s ∨ Candidate usable dir "snipshot_" s → redshiftOf float s = .ok (z s)) :
    ∃ snaps snips all, snapshotLists float sortNames sortDown usable dir = .ok (snaps, snips, all) ∧
      (snaps.Sublist (sortNames (dir.filter (fun s => "snapshot_".toList.isPrefixOf s))) ∧ (snaps.map z).Nodup ∧
        (∀ s ∈ snaps, Candidate usable dir "snapshot_" s) ∧ (∀ s, Candidate usable dir "snapshot_" s → ∃ t ∈ snaps, z t = z s) ∧
        ∀ s ∈ snaps, ∀ t, Candidate usable dir "snapshot_" t → z t = z s → s ≤ t) ∧
      (snips.Sublist (sortNames (dir.filter (fun s => "snipshot_".toList.isPrefixOf s))) ∧ (snips.map z).Nodup ∧
        (∀ s ∈ snips, Candidate usable dir "snipshot_" s) ∧ (∀ s, Candidate usable dir "snipshot_" s → ∃ t ∈ snips, z t = z s) ∧
        ∀ s ∈ snips, ∀ t, Candidate usable dir "snipshot_" t → z t = z s → s ≤ t) ∧
      (all.Pairwise (fun s t => z t < z s) ∧ (∀ s ∈ all, s ∈ snaps ∨ s ∈ snips) ∧ (∀ s, s ∈ snaps ∨ s ∈ snips → ∃ t ∈ all, z t = z s) ∧
        ∀ s ∈ snaps, s ∈ all) := by
  obtain ⟨snaps, e1, s1, o1, f1⟩ := clearDup_ok (float := float) (z := z) (l := candDirs sortNames usable "snapshot_".toList dir)
    (fun s hm => h s (Or.inl ((mem_candDirs hs).1 hm)))
  obtain ⟨snips, e2, s2, o2, f2⟩ := clearDup_ok (float := float) (z := z) (l := candDirs sortNames usable "snipshot_".toList dir)
    (fun s hm => h s (Or.inr ((mem_candDirs hs).1 hm)))
  have hz : HasRedshifts float z (snaps ++ snips) := by
    intro s hm
    rcases List.mem_append.1 hm with hm | hm
    · exact h s (Or.inl ((mem_candDirs hs).1 (o1.from_ s hm)))
    · exact h s (Or.inr ((mem_candDirs hs).1 (o2.from_ s hm)))
  have hmem : ∀ p ∈ sortDown ((snaps ++ snips).map (fun s => (s, z s))), p.1 ∈ snaps ++ snips ∧ p.2 = z p.1 := by
    intro p hp
    obtain ⟨s, hs', rfl⟩ := List.mem_map.1 ((hd.perm _).subset hp)
    exact ⟨hs', rfl⟩
  obtain ⟨all, e3, s3, o3, f3⟩ := clearDup_ok (float := float) (z := z) (l := (sortDown ((snaps ++ snips).map (fun s => (s, z s)))).map Prod.fst) (by
    intro s hm
    obtain ⟨p, hp, rfl⟩ := List.mem_map.1 hm
    exact hz _ (hmem p hp).1)
  have hall : ∀ s, s ∈ (sortDown ((snaps ++ snips).map (fun s => (s, z s)))).map Prod.fst ↔ s ∈ snaps ∨ s ∈ snips := by
    intro s
    rw [((hd.perm _).map Prod.fst).mem_iff, List.map_map, show (Prod.fst ∘ fun s => (s, z s)) = id from rfl, List.map_id, List.mem_append]
  refine ⟨snaps, snips, all, ?_, ⟨s1.trans List.filter_sublist, o1.once, fun s hm => (mem_candDirs hs).1 (o1.from_ s hm),
    fun s hm => o1.each s ((mem_candDirs hs).2 hm), least_of_first hs ho f1⟩, ⟨s2.trans List.filter_sublist, o2.once, fun s hm => (mem_candDirs hs).1 (o2.from_ s hm),
    fun s hm => o2.each s ((mem_candDirs hs).2 hm), least_of_first hs ho f2⟩, ?_, fun s hm => (hall s).1 (o3.from_ s hm), fun s hm => o3.each s ((hall s).2 hm), ?_⟩
  · rw [snapshotLists, e1, Outcome.bind_ok, e2, Outcome.bind_ok, withRedshifts_ok hz, Outcome.bind_ok, e3, Outcome.bind_ok]
  · have hle : all.Pairwise (fun s t => z t ≤ z s) := by
      refine List.Pairwise.sublist s3 ?_
      rw [List.pairwise_map]
      exact (hd.sorted _).imp_of_mem (fun ha hb hab => by rw [← (hmem _ ha).2, ← (hmem _ hb).2]; exact hab)
    have hne : all.Pairwise (fun s t => z s ≠ z t) := List.pairwise_map.1 o3.once
    exact (hle.and hne).imp (fun ⟨a, b⟩ => lt_of_le_of_ne a (Ne.symm b))
  · intro s hm
    obtain ⟨t, ht, e⟩ := o3.each s ((hall s).2 (Or.inl hm))
    have hf := f3 t ht
    rw [List.filter_map, List.head?_map] at hf
    have e4 : (sortDown ((snaps ++ snips).map (fun s => (s, z s)))).filter ((fun y => decide (z y = z t)) ∘ Prod.fst) =
        (sortDown ((snaps ++ snips).map (fun s => (s, z s)))).filter (fun x => decide (x.2 = z t)) :=
      List.filter_congr (fun p hp => by show decide (z p.1 = z t) = decide (p.2 = z t); rw [(hmem p hp).2])
    rw [e4, hd.stable, List.filter_map, List.head?_map, List.filter_append] at hf
    have hs' : snaps.filter ((fun x : List Char × K => decide (x.2 = z t)) ∘ fun s => (s, z s)) ≠ [] := by
      refine List.ne_nil_of_mem (a := s) (List.mem_filter.2 ⟨hm, ?_⟩)
      show decide (z s = z t) = true
      rw [e]
      simp
    obtain ⟨u, l, hu⟩ := List.exists_cons_of_ne_nil hs'
    rw [hu] at hf
    have hu' : u ∈ snaps ∧ z u = z t := by
      have : u ∈ snaps.filter ((fun x : List Char × K => decide (x.2 = z t)) ∘ fun s => (s, z s)) := by rw [hu]; exact List.mem_cons_self
      obtain ⟨a, b⟩ := List.mem_filter.1 this
      exact ⟨a, of_decide_eq_true b⟩
    have hut : u = t := by
      simpa using hf
    have hsu : s = u := List.inj_on_of_nodup_map o1.once hm hu'.1 (by rw [hu'.2, e])
    rw [hsu, hut]
    exact ht

/-- C73. A directory whose name has no redshift is an error: no list is printed. -/
theorem C73_no_redshift (hs : ∀ l, (sortNames l).Perm l) {s : List Char} (hc : Candidate usable dir "snapshot_" s) (h : redshiftOf float s = .abort) :
    snapshotLists float sortNames sortDown usable dir = .abort := by
  rw [snapshotLists, clearDup, withRedshifts_abort ((mem_candDirs hs).2 hc) h]
  rfl

/-! ## Non-vacuity -/

/-- There is such a sort. -/
theorem sortsDown_mergeSort : SortsDown (K := K) (fun l => l.mergeSort (fun a b => decide (b.2 ≤ a.2))) := by
  have ht : ∀ a b c : List Char × K, decide (b.2 ≤ a.2) = true → decide (c.2 ≤ b.2) = true → decide (c.2 ≤ a.2) = true :=
    fun a b c h1 h2 => decide_eq_true (le_trans (of_decide_eq_true h2) (of_decide_eq_true h1))
  have hto : ∀ a b : List Char × K, (decide (b.2 ≤ a.2) || decide (a.2 ≤ b.2)) = true := by
    intro a b
    rcases le_total a.2 b.2 with h | h <;> simp [h]
  refine ⟨fun l => List.mergeSort_perm l _, fun l => ?_, fun l z => ?_⟩
  · exact (List.pairwise_mergeSort ht hto l).imp (fun h => of_decide_eq_true h)
  · symm
    have hsub : (l.filter (fun x => decide (x.2 = z))).Sublist (l.mergeSort (fun a b => decide (b.2 ≤ a.2))) := by
      refine List.sublist_mergeSort ht hto ?_ List.filter_sublist
      rw [List.pairwise_filter]
      refine List.pairwise_of_forall (fun a b ha hb => ?_)
      rw [of_decide_eq_true ha, of_decide_eq_true hb]
      simp
    have h2 := hsub.filter (fun x => decide (x.2 = z))
    simp only [List.filter_filter, Bool.and_self] at h2
    exact h2.eq_of_length ((List.mergeSort_perm l _).filter _).length_eq.symm

end

/-- Digits with an optional point, as a number of thousandths (three digits follow the point). -/
def exFloat (l : List Char) : Option ℕ :=
  if l.all (fun c => c.isDigit || c == '.') then some ((l.filter Char.isDigit).foldl (fun n c => 10 * n + (c.toNat - 48)) 0) else none

/-- Three snapshots of which one is a repetition, three snipshots of which one has the redshift of a snapshot, another file, an empty directory. -/
def exDir : List (List Char) :=
  ["snapshot_001_z000p500", "snipshot_001_z000p700", "snapshot_000_z001p000", "snipshot_000_z001p000", "snipshot_002_z000p200", "snapshot_002_z000p500",
    "snapshot_003_z000p000", "other"].map String.toList

def exUsable (s : List Char) : Bool := s ≠ "snapshot_003_z000p000".toList

def exZ (s : List Char) : ℕ := match redshiftOf exFloat s with | .ok z => z | _ => 0

example : snapshotLists exFloat (fun l => l.insertionSort (· ≤ ·)) (fun l => l.insertionSort (fun a b => b.2 ≤ a.2)) exUsable exDir =
    .ok (["snapshot_000_z001p000", "snapshot_001_z000p500"].map String.toList,
      ["snipshot_000_z001p000", "snipshot_001_z000p700", "snipshot_002_z000p200"].map String.toList,
      ["snapshot_000_z001p000", "snipshot_001_z000p700", "snapshot_001_z000p500", "snipshot_002_z000p200"].map String.toList) := by decide +kernel

/-- The hypotheses of the theorem for this directory. -/
example : ∀ s, Candidate exUsable exDir "snapshot_" s ∨ Candidate exUsable exDir "snipshot_" s → redshiftOf exFloat s = .ok (exZ s) := by
  have h : ∀ s ∈ exDir, ("snapshot_".toList.isPrefixOf s || "snipshot_".toList.isPrefixOf s) = true → redshiftOf exFloat s = .ok (exZ s) := by decide +kernel
  rintro s (⟨a, b, _⟩ | ⟨a, b, _⟩)
  · exact h s a (by rw [List.isPrefixOf_iff_prefix.2 b]; rfl)
  · exact h s a (by rw [List.isPrefixOf_iff_prefix.2 b, Bool.or_true])

/-- A directory without a redshift in its name. -/
example : redshiftOf exFloat "snapshot_000".toList = .abort := by decide +kernel

end HBT.Props
