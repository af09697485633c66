import Verif.Lemmas.Member
import Mathlib.Data.List.Nodup
/-!
# C23: the membership table; C33: ranks
-/
namespace HBT.Props
open HBT HBT.Model HBT.Spec
variable {K D : Type}

/-- The table `t` files the subhaloes `subs` of `nhalos` host haloes: every list can be read, holds
exactly the members of its host, each once, by non-increasing mass; the lists occupy disjoint
consecutive parts of the storage; `nBirth` counts the haloes without member. -/
structure Files [LE K] (t : MemberTable) (nhalos : Nat) (subs : List (Sub K D)) (orphans : Bool) : Prop where
  lists : ∀ h : Int, -1 ≤ h → h < nhalos → ∃ ids, t.group h = .ok ids ∧
    ids.Perm (membersOf orphans subs h) ∧ ids.Pairwise (NotLighter subs)
  number : t.groups.length = nhalos + 1
  storage : t.all.length = subs.length
  inside : ∀ v ∈ t.groups, v.off + v.n ≤ t.all.length
  disjoint : t.groups.Pairwise (fun v w => v.off + v.n ≤ w.off)
  births : t.nBirth = ((List.range nhalos).filter
    (fun h : Nat => (membersOf orphans subs (h : Int)).isEmpty)).length

theorem fillInv_start (orph : Bool) (subs : List (Sub K D)) (G : Nat) (groups : List View)
    (hl : groups.length = G)
    (hn : ∀ g : Nat, g < G → (groups[g]?).map View.n = some (subs.countP (listed orph g))) :
    FillInv orph subs [] G (bindMemberLists groups 0, List.replicate subs.length 0) := by
  obtain ⟨b1, b2⟩ := bindMemberLists_get groups 0
  refine ⟨by rw [b1, hl], by simp, fun g hg => ⟨?_, fun j x hj => by simp [membersOf] at hj⟩⟩
  rw [b2 g (by omega)]
  congr 2
  rw [Nat.zero_add]
  unfold groupOff
  clear b2
  induction g with
  | zero => simp
  | succ g ih =>
    have hgl : g < (groups.map View.n).length := by rw [List.length_map]; omega
    rw [sum_take_succ' _ _ hgl, ih (by omega), Finset.sum_range_succ]
    congr 1
    have := hn g (by omega)
    rw [List.getElem?_eq_getElem (by omega)] at this
    simpa using this

/-- C23. For every list of subhaloes whose listed members have hosts in range, and every way
`std::sort` may order equal masses, building the table succeeds and files every subhalo. -/
theorem C23_build [LinearOrder K] (sort : List (Sub K D) → List Nat → List Nat) (hsort : SortsByMass sort)
    (nhalos : Nat) (subs : List (Sub K D)) (orphans : Bool)
    (hhost : ∀ s ∈ subs, (orphans = true ∨ 1 < s.nbound) → -1 ≤ s.hostHaloId ∧ s.hostHaloId < nhalos) :
    ∃ t, buildTable sort nhalos subs orphans = .ok t ∧ Files t nhalos subs orphans := by
  have hr : ∀ s ∈ subs, counted orphans s = true →
      0 ≤ s.hostHaloId + 1 ∧ s.hostHaloId + 1 < ((nhalos + 1 : Nat) : Int) := by
    intro s hs hc
    have := hhost s hs (by simpa [counted] using hc)
    omega
  obtain ⟨groups, e1, l1, n1⟩ := countMembers_ok orphans subs (List.replicate (nhalos+1) ⟨0, 0⟩)
    (by simpa using hr)
  rw [List.length_replicate] at l1
  have hinv := fillInv_start orphans subs (nhalos+1) groups l1 (by
    intro g hg
    rw [n1]; simp [hg])
  obtain ⟨st, e2, i1, i2, i3⟩ := fillMemberLists_ok orphans subs (nhalos+1) subs [] _ rfl
    (by simpa using hr) hinv
  -- the slices before sorting
  have hsl : ∀ g, g < nhalos + 1 → slice st.2 (groupOff orphans subs g)
      (membersOf orphans subs ((g : Int) - 1)).length = .ok (membersOf orphans subs ((g : Int) - 1)) := by
    intro g hg
    refine slice_of_get _ _ _ _ rfl ?_ (fun p hp => ?_)
    · have := groupOff_le orphans subs (g+1)
      rw [groupOff_succ] at this
      rw [membersOf_length, i2]; exact this
    · rw [(i3 g hg).2 p _ (List.getElem?_eq_getElem hp), List.getElem?_eq_getElem hp]
  have hv : ∀ v ∈ st.1, ∃ g, g < nhalos + 1 ∧ v = ⟨groupOff orphans subs g,
      (membersOf orphans subs ((g : Int) - 1)).length⟩ := by
    intro v hv
    obtain ⟨g, hg, rfl⟩ := List.getElem_of_mem hv
    refine ⟨g, by omega, ?_⟩
    have := (i3 g (by omega)).1
    rw [List.getElem?_eq_getElem hg] at this
    exact Option.some.inj this
  have hdis : st.1.Pairwise (fun v w => v.off + v.n ≤ w.off) := by
    rw [List.pairwise_iff_getElem]
    intro i j hi hj hij
    have a := (i3 i (by omega)).1
    have b := (i3 j (by omega)).1
    rw [List.getElem?_eq_getElem hi, Option.some.injEq] at a
    rw [List.getElem?_eq_getElem hj, Option.some.injEq] at b
    rw [a, b]
    simp only [membersOf_length]
    exact groupOff_disj orphans subs hij
  obtain ⟨all', e3, l3, -, s3⟩ := sortMemberLists_ok (sort subs) st.1 st.2
    (hdis.imp (fun h => Or.inl h)) (by
      intro v hv'
      obtain ⟨g, hg, rfl⟩ := hv v hv'
      exact ⟨_, hsl g hg, (hsort subs _ (membersOf_lt orphans subs _)).1.length_eq⟩)
  refine ⟨⟨all', st.1, countEmptyGroups st.1⟩, ?_, ?_⟩
  · rw [buildTable, e1, Outcome.bind_ok]
    simp only [List.length_nil] at e2
    rw [e2, Outcome.bind_ok, e3, Outcome.bind_ok]
  · refine ⟨?_, i1, by rw [l3, i2], ?_, hdis, ?_⟩
    · intro h h1 h2
      obtain ⟨g, hg⟩ : ∃ g : Nat, h + 1 = g := ⟨(h+1).toNat, by omega⟩
      have hgl : g < nhalos + 1 := by omega
      have hh : h = (g : Int) - 1 := by omega
      refine ⟨sort subs (membersOf orphans subs h), ?_, hsort subs _ (membersOf_lt orphans subs _)⟩
      unfold MemberTable.group groupIndex
      rw [if_neg (by omega), Outcome.bind_ok, hg, Int.toNat_natCast, Outcome.get, (i3 g hgl).1]
      simp only [Outcome.bind_ok]
      rw [hh]
      refine s3 ⟨groupOff orphans subs g, (membersOf orphans subs ((g : Int) - 1)).length⟩ ?_ _ (hsl g hgl)
      exact List.mem_of_getElem? (i3 g hgl).1
    · intro v hv'
      obtain ⟨g, hg, rfl⟩ := hv v hv'
      have := (slice_get (hsl g hg)).1
      simp only; omega
    · simp only [countEmptyGroups]
      have ht : st.1.tail = (List.range nhalos).map (fun h : Nat => (⟨groupOff orphans subs (h+1),
          (membersOf orphans subs (h : Int)).length⟩ : View)) := by
        apply List.ext_getElem?
        intro k
        rw [List.getElem?_tail]
        rcases Nat.lt_or_ge k nhalos with hk | hk
        · rw [(i3 (k+1) (by omega)).1]
          simp [hk]
        · rw [List.getElem?_eq_none (by omega), List.getElem?_eq_none (by simp; omega)]
      rw [ht, List.filter_map, List.length_map]
      congr 1
      apply List.filter_congr
      intro x _
      simp only [Function.comp_apply]
      rw [Bool.eq_iff_iff]
      simp

/-- C23. A listed subhalo whose host is out of range makes the build write outside the table:
undefined behaviour (e.g. a host of `-2`, the value for a particle found nowhere). -/
theorem C23_bad_host (sort : List (Sub K D) → List Nat → List Nat)
    (nhalos : Nat) (subs : List (Sub K D)) (orphans : Bool) (s : Sub K D) (hs : s ∈ subs)
    (hl : orphans = true ∨ 1 < s.nbound) (hb : s.hostHaloId < -1 ∨ (nhalos : Int) ≤ s.hostHaloId) :
    buildTable sort nhalos subs orphans = .ub := by
  unfold buildTable
  rw [countMembers_ub orphans subs _ ⟨s, hs, by simpa [counted] using hl, by
    rw [List.length_replicate]; omega⟩]
  rfl

/-- C23. In a filed table every listed subhalo is in the list of its host, once, and in no other
list. -/
theorem C23_exactly_once [LE K] {t : MemberTable} {nhalos : Nat} {subs : List (Sub K D)} {orphans : Bool}
    (ht : Files t nhalos subs orphans) (i : Nat) (s : Sub K D) (hi : subs[i]? = some s)
    (hl : orphans = true ∨ 1 < s.nbound) (h : Int) (h1 : -1 ≤ h) (h2 : h < nhalos) :
    ∃ ids, t.group h = .ok ids ∧ ids.count i = if s.hostHaloId = h then 1 else 0 := by
  obtain ⟨ids, e, hp, -⟩ := ht.lists h h1 h2
  refine ⟨ids, e, ?_⟩
  rw [hp.count_eq]
  split
  · rename_i hh
    exact List.count_eq_one_of_mem (membersOf_nodup orphans subs h)
      ((mem_membersOf orphans subs h i).2 ⟨s, hi, hh, hl⟩)
  · rename_i hh
    rw [List.count_eq_zero]
    intro hmem
    obtain ⟨s', hs', e', -⟩ := (mem_membersOf orphans subs h i).1 hmem
    rw [hi] at hs'
    cases hs'
    exact hh e'

/-- Sorting by decreasing mass with a stable sort: one admissible `std::sort`. (Indices out of range,
which never occur, count as mass 0.) -/
def massSort (subs : List (Sub ℚ D)) (l : List Nat) : List Nat :=
  l.mergeSort (fun i j => decide (((subs[j]?).map Sub.mbound).getD 0 ≤ ((subs[i]?).map Sub.mbound).getD 0))

theorem massSort_spec : SortsByMass (massSort (D := D)) := by
  intro subs l _
  refine ⟨List.mergeSort_perm _ _, ?_⟩
  have := List.pairwise_mergeSort (le := fun i j =>
      decide (((subs[j]?).map Sub.mbound).getD 0 ≤ ((subs[i]?).map Sub.mbound).getD 0))
    (by intro a b c h1 h2; simp only [decide_eq_true_eq] at *; exact le_trans h2 h1)
    (by intro a b; simp only [Bool.or_eq_true, decide_eq_true_eq]; exact le_total _ _) l
  refine this.imp (fun {a b} h x y hx hy => ?_)
  simpa [hx, hy] using h

/-- Six subhaloes in two haloes and the field; halo 1 has none but orphans. -/
def exSubs : List (Sub ℚ Unit) :=
  [ { mbound := 3, lastMaxMass := 3, nbound := 3, hostHaloId := 0, trackId := 0 },
    { mbound := 7, lastMaxMass := 7, nbound := 7, hostHaloId := 0, trackId := 1 },
    { mbound := 5, lastMaxMass := 5, nbound := 5, hostHaloId := -1, trackId := 2 },
    { mbound := 1, lastMaxMass := 9, nbound := 1, hostHaloId := 1, trackId := 3 },
    { mbound := 7, lastMaxMass := 7, nbound := 7, hostHaloId := 0, trackId := 4 },
    { mbound := 6, lastMaxMass := 7, nbound := 6, hostHaloId := -1, trackId := 5 } ]

example : ∃ t, buildTable massSort 2 exSubs true = .ok t ∧ Files t 2 exSubs true :=
  C23_build massSort massSort_spec 2 exSubs true (by
    intro s hs _; simp [exSubs] at hs; rcases hs with rfl|rfl|rfl|rfl|rfl|rfl <;> decide)
example : membersOf true exSubs 0 = [0, 1, 4] ∧ membersOf true exSubs (-1) = [2, 5] ∧
    membersOf false exSubs 1 = [] := by decide

/-! ## Ranks -/

theorem setRanks_ok (f : Nat → Int) : ∀ (ids : List Nat) (i : Nat) (subs : List (Sub K D)), ids.Nodup →
    (∀ id ∈ ids, id < subs.length) →
    ∃ subs', setRanks f ids i subs = .ok subs' ∧ subs'.length = subs.length ∧
      (∀ p, p ∉ ids → subs'[p]? = subs[p]?) ∧
      ∀ (j id : Nat), ids[j]? = some id → subs'[id]? = (subs[id]?).map (fun s => s.withRank (f (i + j))) := by
  intro ids
  induction ids with
  | nil => intro i subs _ _; exact ⟨subs, rfl, rfl, fun _ _ => rfl, fun j id h => by simp at h⟩
  | cons id ids ih =>
    intro i subs hn hl
    rw [List.nodup_cons] at hn
    have hid := hl id (by simp)
    obtain ⟨subs', e, h1, h2, h3⟩ := ih (i+1) (subs.set id (subs[id].withRank (f i))) hn.2
      (by intro x hx; rw [List.length_set]; exact hl x (by simp [hx]))
    refine ⟨subs', ?_, by simpa using h1, ?_, ?_⟩
    · rw [setRanks, Outcome.get_of_lt hid, Outcome.bind_ok, Outcome.set_of_lt hid, Outcome.bind_ok, e]
    · intro p hp
      rw [h2 p (by simp at hp; exact hp.2), List.getElem?_set_ne (by simp at hp; exact fun h => hp.1 h.symm)]
    · intro j x hj
      cases j with
      | zero =>
        simp only [List.getElem?_cons_zero, Option.some.injEq] at hj
        subst hj
        rw [h2 id hn.1, List.getElem?_set_self hid, List.getElem?_eq_getElem hid]
        simp
      | succ j =>
        rw [List.getElem?_cons_succ] at hj
        have hne : id ≠ x := by
          rintro rfl; exact hn.1 (List.mem_of_getElem? hj)
        rw [h3 j x hj, List.getElem?_set_ne hne]
        congr 1; funext s; congr 2; omega

theorem assignRanksFrom_ok (t : MemberTable) (L : Int → List Nat) : ∀ (k : Nat) (h : Int) (subs : List (Sub K D)),
    (∀ x, h ≤ x → x < h + k → t.group x = .ok (L x) ∧ (L x).Nodup ∧ ∀ id ∈ L x, id < subs.length) →
    (∀ x y, h ≤ x → x < y → y < h + k → ∀ id ∈ L x, id ∉ L y) →
    ∃ subs', assignRanksFrom t k h subs = .ok subs' ∧ subs'.length = subs.length ∧
      (∀ p, (∀ x, h ≤ x → x < h + k → p ∉ L x) → subs'[p]? = subs[p]?) ∧
      ∀ x, h ≤ x → x < h + k → ∀ (j id : Nat), (L x)[j]? = some id →
        subs'[id]? = (subs[id]?).map (fun s => (s.withRank ((j : Int)))) := by
  intro k
  induction k with
  | zero =>
    intro h subs _ _
    exact ⟨subs, rfl, rfl, fun _ _ => rfl, fun x h1 h2 => by exfalso; simp at h2; omega⟩
  | succ k ih =>
    intro h subs hg hd
    obtain ⟨g1, g2, g3⟩ := hg h (le_refl _) (by push_cast; omega)
    obtain ⟨s1, e1, l1, k1, r1⟩ := setRanks_ok (fun i => (i : Int)) (L h) 0 subs g2 g3
    obtain ⟨s2, e2, l2, k2, r2⟩ := ih (h+1) s1
      (by intro x hx1 hx2; rw [l1]; exact hg x (by omega) (by push_cast; omega))
      (by intro x y hx hxy hy; exact hd x y (by omega) hxy (by push_cast; omega))
    refine ⟨s2, ?_, by omega, ?_, ?_⟩
    · rw [assignRanksFrom, g1, Outcome.bind_ok, e1, Outcome.bind_ok, e2]
    · intro p hp
      rw [k2 p (fun x hx1 hx2 => hp x (by omega) (by push_cast; omega)),
        k1 p (hp h (le_refl _) (by push_cast; omega))]
    · intro x hx1 hx2 j id hj
      rcases eq_or_lt_of_le hx1 with rfl | hlt
      · rw [k2 id (fun y hy1 hy2 => hd h y (le_refl _) (by omega) (by push_cast; omega) id
          (List.mem_of_getElem? hj)), r1 j id hj]
        simp
      · rw [r2 x (by omega) (by push_cast at hx2; omega) j id hj,
          k1 id (fun hm => hd h x (le_refl _) (by omega) hx2 id hm (List.mem_of_getElem? hj))]

theorem filter_eq_filterMap_range {β : Type} (p : β → Bool) (l : List β) :
    l.filter p = ((List.range l.length).filter (fun i => (l[i]?).any p)).filterMap (fun i => l[i]?) := by
  induction l using List.reverseRecOn with
  | nil => rfl
  | append_singleton l a ih =>
    rw [List.length_append, List.length_singleton, List.range_succ, List.filter_append, List.filter_append,
      List.filterMap_append]
    congr 1
    · rw [ih]
      have h1 : (List.range l.length).filter (fun i => ((l ++ [a])[i]?).any p)
          = (List.range l.length).filter (fun i => (l[i]?).any p) := by
        apply List.filter_congr
        intro i hi
        rw [List.getElem?_append_left (List.mem_range.1 hi)]
      rw [h1]
      apply List.filterMap_congr
      intro i hi
      rw [List.getElem?_append_left (List.mem_range.1 (List.mem_filter.1 hi).1)]
    · by_cases h : p a = true <;> simp [h]

theorem filterMap_all {β γ δ : Type} (f : β → Option γ) (r : γ → δ) (g : Nat → δ) : ∀ (l : List β) (i : Nat),
    (∀ j b, l[j]? = some b → (f b).map r = some (g (i + j))) →
    (l.filterMap f).map r = (List.range' i l.length).map g := by
  intro l
  induction l with
  | nil => intro i _; rfl
  | cons b l ih =>
    intro i h
    have h0 := h 0 b rfl
    cases hb : f b with
    | none => rw [hb] at h0; cases h0
    | some c =>
      rw [hb] at h0
      simp only [Option.map_some, Option.some.injEq] at h0
      rw [List.filterMap_cons_some hb, List.map_cons, List.length_cons, List.range'_succ, List.map_cons,
        ih (i+1) (fun j b' hj => by
          have := h (j+1) b' (by simpa using hj)
          rw [this]; congr 2; omega), h0]
      simp

/-- C33. After ranks are assigned from a filed table: nothing but ranks changed; field subhaloes have
rank 0; the ranks of the members of each host are exactly `0, …, n-1`; and a member of smaller rank
is never lighter. -/
theorem C33_ranks [LinearOrder K] {t : MemberTable} {nhalos : Nat} {subs : List (Sub K D)}
    (ht : Files t nhalos subs true)
    (hhost : ∀ s ∈ subs, -1 ≤ s.hostHaloId ∧ s.hostHaloId < nhalos) :
    ∃ subs', assignRanks t subs = .ok subs' ∧
      subs'.map (fun s => s.withRank 0) = subs.map (fun s => s.withRank 0) ∧
      (∀ s ∈ subs', s.hostHaloId = -1 → s.rank = 0) ∧
      (∀ h : Int, 0 ≤ h → h < nhalos →
        ((subs'.filter (fun s => s.hostHaloId = h)).map Sub.rank).Perm
          ((List.range (subs'.filter (fun s => s.hostHaloId = h)).length).map (fun r : Nat => (r : Int)))) ∧
      (∀ a ∈ subs', ∀ b ∈ subs', 0 ≤ a.hostHaloId → a.hostHaloId = b.hostHaloId → a.rank < b.rank →
        b.mbound ≤ a.mbound) := by
  choose! L hL using ht.lists
  have hnd : ∀ x : Int, -1 ≤ x → x < nhalos → (L x).Nodup := fun x h1 h2 =>
    (hL x h1 h2).2.1.nodup_iff.2 (membersOf_nodup true subs x)
  have hmem : ∀ x : Int, -1 ≤ x → x < nhalos → ∀ id : Nat, id ∈ L x ↔ ∃ s, subs[id]? = some s ∧ s.hostHaloId = x := by
    intro x h1 h2 id
    rw [(hL x h1 h2).2.1.mem_iff, mem_membersOf]
    simp
  have hlt : ∀ x : Int, -1 ≤ x → x < nhalos → ∀ id ∈ L x, id < subs.length := by
    intro x h1 h2 id hid
    obtain ⟨s, hs, _⟩ := (hmem x h1 h2 id).1 hid
    exact (List.getElem?_eq_some_iff.1 hs).1
  have hdis : ∀ x y : Int, -1 ≤ x → x < nhalos → -1 ≤ y → y < nhalos → x ≠ y → ∀ id ∈ L x, id ∉ L y := by
    intro x y h1 h2 h3 h4 hne id hx hy
    obtain ⟨s, hs, e⟩ := (hmem x h1 h2 id).1 hx
    obtain ⟨s', hs', e'⟩ := (hmem y h3 h4 id).1 hy
    rw [hs] at hs'
    cases hs'
    exact hne (e.symm.trans e')
  obtain ⟨s1, e1, l1, k1, r1⟩ := setRanks_ok (fun _ => 0) (L (-1)) 0 subs (hnd _ (by omega) (by omega))
    (hlt _ (by omega) (by omega))
  obtain ⟨s2, e2, l2, k2, r2⟩ := assignRanksFrom_ok t L nhalos 0 s1
    (by intro x h1 h2; rw [l1]
        exact ⟨(hL x (by omega) (by omega)).1, hnd x (by omega) (by omega), hlt x (by omega) (by omega)⟩)
    (by intro x y h1 h2 h3; exact hdis x y (by omega) (by omega) (by omega) (by omega) (by omega))
  -- each entry in terms of the original
  have hfield : ∀ (id : Nat) s, subs[id]? = some s → s.hostHaloId = -1 → s2[id]? = some (s.withRank 0) := by
    intro id s hs hh
    have hin := (hmem (-1) (by omega) (by omega) id).2 ⟨s, hs, hh⟩
    obtain ⟨j, hj⟩ := List.getElem?_of_mem hin
    rw [k2 id (fun x h1 h2 => hdis (-1) x (by omega) (by omega) (by omega) (by omega) (by omega) id hin),
      r1 j id hj, hs]
    rfl
  have hhalo : ∀ x : Int, 0 ≤ x → x < nhalos → ∀ (j id : Nat), (L x)[j]? = some id →
      s2[id]? = (subs[id]?).map (fun s => (s.withRank ((j : Int)))) := by
    intro x h1 h2 j id hj
    rw [r2 x h1 (by omega) j id hj, k1 id]
    exact hdis x (-1) (by omega) (by omega) (by omega) (by omega) (by omega) id (List.mem_of_getElem? hj)
  have hany : ∀ (id : Nat) s, subs[id]? = some s → (s.hostHaloId = -1 ∧ s2[id]? = some (s.withRank 0)) ∨
      ∃ j : Nat, 0 ≤ s.hostHaloId ∧ (L s.hostHaloId)[j]? = some id ∧ s2[id]? = some (s.withRank ((j : Int))) := by
    intro id s hs
    have hr := hhost s (List.mem_of_getElem? hs)
    rcases eq_or_lt_of_le hr.1 with h | h
    · exact Or.inl ⟨h.symm, hfield id s hs h.symm⟩
    · have hin := (hmem s.hostHaloId hr.1 hr.2 id).2 ⟨s, hs, rfl⟩
      obtain ⟨j, hj⟩ := List.getElem?_of_mem hin
      refine Or.inr ⟨j, by omega, hj, ?_⟩
      rw [hhalo s.hostHaloId (by omega) hr.2 j id hj, hs]
      rfl
  have hback : ∀ (id : Nat) s', s2[id]? = some s' → ∃ s, subs[id]? = some s := by
    intro id s' h
    have := (List.getElem?_eq_some_iff.1 h).1
    exact ⟨_, List.getElem?_eq_getElem (by omega)⟩
  refine ⟨s2, ?_, ?_, ?_, ?_, ?_⟩
  · rw [assignRanks, (hL (-1) (by omega) (by omega)).1, Outcome.bind_ok, e1, Outcome.bind_ok,
      ht.number, Nat.add_sub_cancel, e2]
  · apply List.ext_getElem?
    intro id
    rw [List.getElem?_map, List.getElem?_map]
    cases hs : subs[id]? with
    | none =>
      rw [List.getElem?_eq_none_iff] at hs
      rw [List.getElem?_eq_none (by omega)]
    | some s =>
      rcases hany id s hs with ⟨_, h⟩ | ⟨j, _, _, h⟩ <;> rw [h] <;> rfl
  · intro s' hs' hh
    obtain ⟨id, hid⟩ := List.getElem?_of_mem hs'
    obtain ⟨s, hs⟩ := hback id s' hid
    rcases hany id s hs with ⟨_, h⟩ | ⟨j, h0, _, h⟩
    · rw [hid, Option.some.injEq] at h; rw [h]; rfl
    · rw [hid, Option.some.injEq] at h; rw [h] at hh; simp only [Sub.withRank_hostHaloId] at hh; omega
  · intro x h1 h2
    have hp : (s2.filter (fun s => s.hostHaloId = x)).Perm ((L x).filterMap (fun id => s2[id]?)) := by
      rw [filter_eq_filterMap_range]
      refine (List.Perm.filterMap _ ?_)
      rw [List.perm_ext_iff_of_nodup (List.nodup_range.filter _) (hnd x (by omega) h2)]
      intro id
      rw [hmem x (by omega) h2, List.mem_filter, List.mem_range]
      constructor
      · rintro ⟨hid, hh⟩
        obtain ⟨s, hs⟩ := hback id _ (List.getElem?_eq_getElem hid)
        refine ⟨s, hs, ?_⟩
        rcases hany id s hs with ⟨_, e⟩ | ⟨j, _, _, e⟩ <;> rw [e] at hh <;> simpa using hh
      · rintro ⟨s, hs, rfl⟩
        rcases hany id s hs with ⟨_, e⟩ | ⟨j, _, _, e⟩ <;>
          exact ⟨(List.getElem?_eq_some_iff.1 e).1, by rw [e]; simp [Sub.withRank]⟩
    have hlist : ((L x).filterMap (fun id => s2[id]?)).map Sub.rank
        = (List.range (L x).length).map (fun r : Nat => (r : Int)) := by
      have := filterMap_all (fun id => s2[id]?) Sub.rank (fun r : Nat => (r : Int)) (L x) 0
        (fun j id hj => by
          obtain ⟨s, hs, _⟩ := (hmem x (by omega) h2 id).1 (List.mem_of_getElem? hj)
          rw [hhalo x h1 h2 j id hj, hs]
          simp [Sub.withRank])
      rw [this, List.range_eq_range']
    have hlen : (s2.filter (fun s => s.hostHaloId = x)).length = (L x).length := by
      have := congrArg List.length hlist
      rw [List.length_map, List.length_map, List.length_range] at this
      rw [hp.length_eq, this]
    rw [hlen, ← hlist]
    exact hp.map _
  · intro a ha b hb h0 hab hr
    obtain ⟨i, hi⟩ := List.getElem?_of_mem ha
    obtain ⟨k, hk⟩ := List.getElem?_of_mem hb
    obtain ⟨sa, hsa⟩ := hback i a hi
    obtain ⟨sb, hsb⟩ := hback k b hk
    rcases hany i sa hsa with ⟨h, e⟩ | ⟨j, hj0, hj, e⟩
    · rw [hi, Option.some.injEq] at e; rw [e] at h0; simp only [Sub.withRank_hostHaloId] at h0; omega
    rcases hany k sb hsb with ⟨h, e'⟩ | ⟨j', hj0', hj', e'⟩
    · rw [hk, Option.some.injEq] at e'; rw [e'] at hab; simp only [Sub.withRank_hostHaloId] at hab; omega
    rw [hi, Option.some.injEq] at e
    rw [hk, Option.some.injEq] at e'
    subst e e'
    simp only [Sub.withRank_hostHaloId, Sub.withRank_rank, Sub.withRank_mbound] at hab hr ⊢
    rw [← hab] at hj'
    have hpw := (hL sa.hostHaloId (by omega) (hhost sa (List.mem_of_getElem? hsa)).2).2.2
    rw [List.pairwise_iff_getElem] at hpw
    obtain ⟨p1, p2⟩ := List.getElem?_eq_some_iff.1 hj
    obtain ⟨q1, q2⟩ := List.getElem?_eq_some_iff.1 hj'
    exact hpw j j' p1 q1 (by omega) sa sb (by rw [p2]; exact hsa) (by rw [q2]; exact hsb)

example : ∃ t subs', buildTable massSort 2 exSubs true = .ok t ∧ assignRanks t exSubs = .ok subs' ∧
    (∀ s ∈ subs', s.hostHaloId = -1 → s.rank = 0) := by
  have hh : ∀ s ∈ exSubs, -1 ≤ s.hostHaloId ∧ s.hostHaloId < (2 : Nat) := by
    intro s hs; simp [exSubs] at hs; rcases hs with rfl|rfl|rfl|rfl|rfl|rfl <;> decide
  obtain ⟨t, e, ht⟩ := C23_build massSort massSort_spec 2 exSubs true (fun s hs _ => hh s hs)
  obtain ⟨subs', e', _, h, _⟩ := C33_ranks ht hh
  exact ⟨t, subs', e, e', h⟩

end HBT.Props
