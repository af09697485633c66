import Verif.Model.Member
import Verif.Spec.Member
import Verif.Lemmas.Mpi
import Mathlib.Algebra.BigOperators.Intervals
import Mathlib.Algebra.BigOperators.Group.Finset.Basic
import Mathlib.Algebra.Order.BigOperators.Group.Finset
/-!
# Helper lemmas for the membership table
-/
namespace HBT
open HBT.Model HBT.Spec
variable {K D : Type}

/-- Is `s` listed under group number `g` (host `g-1`)? -/
def listed (orph : Bool) (g : Nat) (s : Sub K D) : Bool :=
  decide (s.hostHaloId = (g : Int) - 1) && counted orph s

theorem membersOf_snoc (orph : Bool) (pre : List (Sub K D)) (s : Sub K D) (g : Nat) :
    membersOf orph (pre ++ [s]) ((g : Int) - 1)
      = membersOf orph pre ((g : Int) - 1) ++ if listed orph g s then [pre.length] else [] := by
  unfold membersOf
  rw [List.length_append, List.length_singleton, List.range_succ, List.filter_append]
  congr 1
  · apply List.filter_congr
    intro i hi
    rw [List.getElem?_append_left (List.mem_range.1 hi)]
  · simp only [List.filter_cons, List.filter_nil, List.getElem?_append_right (le_refl _),
      Nat.sub_self, List.getElem?_cons_zero]
    rfl

theorem membersOf_length (orph : Bool) (subs : List (Sub K D)) (g : Nat) :
    (membersOf orph subs ((g : Int) - 1)).length = subs.countP (listed orph g) := by
  induction subs using List.reverseRecOn with
  | nil => rfl
  | append_singleton pre s ih =>
    rw [membersOf_snoc, List.length_append, ih, List.countP_append, List.countP_singleton]
    split <;> simp

theorem membersOf_lt (orph : Bool) (subs : List (Sub K D)) (h : Int) :
    ∀ i ∈ membersOf orph subs h, i < subs.length := by
  intro i hi
  unfold membersOf at hi
  exact List.mem_range.1 (List.mem_filter.1 hi).1

theorem membersOf_nodup (orph : Bool) (subs : List (Sub K D)) (h : Int) :
    (membersOf orph subs h).Nodup := List.nodup_range.filter _

theorem mem_membersOf (orph : Bool) (subs : List (Sub K D)) (h : Int) (i : Nat) :
    i ∈ membersOf orph subs h ↔ ∃ s, subs[i]? = some s ∧ s.hostHaloId = h ∧ (orph = true ∨ 1 < s.nbound) := by
  unfold membersOf
  rw [List.mem_filter, List.mem_range]
  constructor
  · rintro ⟨hl, hp⟩
    rw [List.getElem?_eq_getElem hl] at hp ⊢
    simp only [Bool.and_eq_true, Bool.or_eq_true, decide_eq_true_eq] at hp
    exact ⟨_, rfl, hp.1, hp.2⟩
  · rintro ⟨s, hs, h1, h2⟩
    refine ⟨(List.getElem?_eq_some_iff.1 hs).1, ?_⟩
    rw [hs]
    simp [h1, h2]

/-- Start of group `g` in the storage. -/
def groupOff (orph : Bool) (subs : List (Sub K D)) (g : Nat) : Nat :=
  ∑ k ∈ Finset.range g, subs.countP (listed orph k)

theorem groupOff_succ (orph : Bool) (subs : List (Sub K D)) (g : Nat) :
    groupOff orph subs (g+1) = groupOff orph subs g + subs.countP (listed orph g) :=
  Finset.sum_range_succ _ _

theorem groupOff_mono (orph : Bool) (subs : List (Sub K D)) {g g' : Nat} (h : g ≤ g') :
    groupOff orph subs g ≤ groupOff orph subs g' :=
  Finset.sum_le_sum_of_subset (by simpa using h)

theorem groupOff_disj (orph : Bool) (subs : List (Sub K D)) {g g' : Nat} (h : g < g') :
    groupOff orph subs g + subs.countP (listed orph g) ≤ groupOff orph subs g' := by
  rw [← groupOff_succ]; exact groupOff_mono orph subs h

theorem groupOff_le (orph : Bool) (subs : List (Sub K D)) (g : Nat) :
    groupOff orph subs g ≤ subs.length := by
  unfold groupOff
  induction subs with
  | nil => simp
  | cons s subs ih =>
    simp only [List.countP_cons, Finset.sum_add_distrib, List.length_cons]
    have : ∑ k ∈ Finset.range g, (if listed orph k s = true then 1 else 0) ≤ 1 := by
      rw [Finset.sum_boole]
      simp only [Nat.cast_id]
      rw [Finset.card_le_one]
      intro a ha b hb
      simp only [listed, Finset.mem_filter, Bool.and_eq_true, decide_eq_true_eq] at ha hb
      omega
    omega

theorem countMembers_ok (orph : Bool) : ∀ (l : List (Sub K D)) (groups : List View),
    (∀ s ∈ l, counted orph s = true → 0 ≤ s.hostHaloId + 1 ∧ s.hostHaloId + 1 < groups.length) →
    ∃ groups', countMembers orph l groups = .ok groups' ∧ groups'.length = groups.length ∧
      ∀ (g : Nat), (groups'[g]?).map View.n
        = (groups[g]?).map (fun v => v.n + l.countP (listed orph g)) := by
  intro l
  induction l with
  | nil => intro groups _; exact ⟨groups, rfl, rfl, fun g => by simp⟩
  | cons s l ih =>
    intro groups h
    rw [countMembers]
    split
    · rename_i hc
      have hr := h s (by simp) hc
      have hg : (s.hostHaloId + 1).toNat < groups.length := by omega
      have e : incrementBind groups s.hostHaloId = .ok (groups.set (s.hostHaloId + 1).toNat
          { groups[(s.hostHaloId + 1).toNat] with n := groups[(s.hostHaloId + 1).toNat].n + 1 }) := by
        unfold incrementBind groupIndex
        rw [if_neg (by omega)]
        simp [hg]
      rw [e, Outcome.bind_ok]
      obtain ⟨groups', e', hl, hn⟩ := ih (groups.set (s.hostHaloId + 1).toNat
          { groups[(s.hostHaloId + 1).toNat] with n := groups[(s.hostHaloId + 1).toNat].n + 1 })
          (by intro t ht hct; rw [List.length_set]; exact h t (by simp [ht]) hct)
      refine ⟨groups', e', by simpa using hl, fun g => ?_⟩
      rw [hn, List.getElem?_set]
      have hb : listed orph g s = decide ((s.hostHaloId + 1).toNat = g) := by
        unfold listed; rw [hc, Bool.and_true, decide_eq_decide]; omega
      rw [List.countP_cons, hb]
      by_cases hgg : (s.hostHaloId + 1).toNat = g
      · subst hgg
        simp [hg]
        omega
      · simp [hgg]
    · rename_i hc
      obtain ⟨groups', e', hl, hn⟩ := ih groups (fun t ht => h t (by simp [ht]))
      refine ⟨groups', e', hl, fun g => ?_⟩
      rw [hn, List.countP_cons]
      have hb : listed orph g s = false := by
        unfold listed; simp [hc]
      simp [hb]

theorem countMembers_ub (orph : Bool) : ∀ (l : List (Sub K D)) (groups : List View),
    (∃ s ∈ l, counted orph s = true ∧ ¬ (0 ≤ s.hostHaloId + 1 ∧ s.hostHaloId + 1 < groups.length)) →
    countMembers orph l groups = .ub := by
  intro l
  induction l with
  | nil => rintro groups ⟨s, hs, _⟩; simp at hs
  | cons s l ih =>
    rintro groups ⟨t, ht, hc, hb⟩
    rw [countMembers]
    by_cases hs : counted orph s = true ∧ ¬ (0 ≤ s.hostHaloId + 1 ∧ s.hostHaloId + 1 < groups.length)
    · rw [if_pos hs.1]
      have e : incrementBind groups s.hostHaloId = .ub := by
        unfold incrementBind groupIndex
        split
        · rfl
        · have : groups[(s.hostHaloId + 1).toNat]? = none := List.getElem?_eq_none (by omega)
          simp [Outcome.get, this]
      rw [e]; rfl
    · have ht' : t ∈ l := by
        rcases List.mem_cons.1 ht with rfl | h
        · exact absurd ⟨hc, hb⟩ hs
        · exact h
      split
      · rename_i hcs
        have hr : 0 ≤ s.hostHaloId + 1 ∧ s.hostHaloId + 1 < groups.length := by
          by_contra hh; exact hs ⟨hcs, hh⟩
        have hg : (s.hostHaloId + 1).toNat < groups.length := by omega
        have e : incrementBind groups s.hostHaloId = .ok (groups.set (s.hostHaloId + 1).toNat
            { groups[(s.hostHaloId + 1).toNat] with n := groups[(s.hostHaloId + 1).toNat].n + 1 }) := by
          unfold incrementBind groupIndex
          rw [if_neg (by omega)]
          simp [hg]
        rw [e, Outcome.bind_ok]
        exact ih _ ⟨t, ht', hc, by rw [List.length_set]; exact hb⟩
      · exact ih _ ⟨t, ht', hc, hb⟩

theorem bindMemberLists_get : ∀ (vs : List View) (o : Nat),
    (bindMemberLists vs o).length = vs.length ∧
    ∀ g, g < vs.length → (bindMemberLists vs o)[g]? = some ⟨o + ((vs.map View.n).take g).sum, 0⟩ := by
  intro vs
  induction vs with
  | nil => intro o; exact ⟨rfl, fun g h => absurd h (by simp)⟩
  | cons v vs ih =>
    intro o
    obtain ⟨h1, h2⟩ := ih (o + v.n)
    refine ⟨by simp [bindMemberLists, h1], fun g hg => ?_⟩
    cases g with
    | zero => simp [bindMemberLists]
    | succ g =>
      rw [bindMemberLists, List.getElem?_cons_succ, h2 g (by simpa using hg)]
      simp; omega

/-- The invariant of the filling loop: `pre` are the subhaloes already filed. -/
def FillInv (orph : Bool) (subs pre : List (Sub K D)) (G : Nat) (st : List View × List Nat) : Prop :=
  st.1.length = G ∧ st.2.length = subs.length ∧
  ∀ g, g < G → st.1[g]? = some ⟨groupOff orph subs g, (membersOf orph pre ((g : Int) - 1)).length⟩ ∧
    ∀ j x, (membersOf orph pre ((g : Int) - 1))[j]? = some x → st.2[groupOff orph subs g + j]? = some x

theorem fillMemberLists_ok (orph : Bool) (subs : List (Sub K D)) (G : Nat) :
    ∀ (suf pre : List (Sub K D)) (st : List View × List Nat), subs = pre ++ suf →
    (∀ s ∈ suf, counted orph s = true → 0 ≤ s.hostHaloId + 1 ∧ s.hostHaloId + 1 < G) →
    FillInv orph subs pre G st →
    ∃ st', fillMemberLists orph suf pre.length st = .ok st' ∧ FillInv orph subs subs G st' := by
  intro suf
  induction suf with
  | nil =>
    intro pre st hs _ hI
    rw [List.append_nil] at hs
    subst hs
    exact ⟨st, rfl, hI⟩
  | cons s suf ih =>
    intro pre st hs hr hI
    have hs' : subs = (pre ++ [s]) ++ suf := by simp [hs]
    have hlen : (pre ++ [s]).length = pre.length + 1 := by simp
    rw [fillMemberLists]
    by_cases hc : counted orph s = true
    · rw [if_pos hc]
      obtain ⟨hr1, hr2⟩ := hr s (by simp) hc
      obtain ⟨k, hk⟩ : ∃ k : Nat, s.hostHaloId + 1 = k := ⟨(s.hostHaloId + 1).toNat, by omega⟩
      have hkG : k < G := by omega
      obtain ⟨i1, i2, i3⟩ := hI
      obtain ⟨iv, _⟩ := i3 k hkG
      have hbk : listed orph k s = true := by
        unfold listed; simp [hc]; omega
      -- room in the group
      have hroom : (membersOf orph pre ((k : Int) - 1)).length < subs.countP (listed orph k) := by
        rw [membersOf_length, hs', List.countP_append, List.countP_append, List.countP_singleton, hbk]
        simp; omega
      have hpos : groupOff orph subs k + (membersOf orph pre ((k : Int) - 1)).length < st.2.length := by
        rw [i2]
        have h1 := groupOff_le orph subs (k+1)
        rw [groupOff_succ] at h1
        omega
      have e : pushBack st.1 st.2 s.hostHaloId pre.length
          = .ok (st.1.set k ⟨groupOff orph subs k, (membersOf orph pre ((k : Int) - 1)).length + 1⟩,
              st.2.set (groupOff orph subs k + (membersOf orph pre ((k : Int) - 1)).length) pre.length) := by
        unfold pushBack groupIndex
        rw [if_neg (by omega), hk, Int.toNat_natCast, Outcome.bind_ok, Outcome.get, iv]
        simp only [Outcome.bind_ok]
        rw [Outcome.set_of_lt hpos, Outcome.bind_ok, Outcome.set_of_lt (by omega), Outcome.bind_ok]
      rw [e, Outcome.bind_ok]
      have hr' : ∀ t ∈ suf, counted orph t = true → 0 ≤ t.hostHaloId + 1 ∧ t.hostHaloId + 1 < G :=
        fun t ht => hr t (by simp [ht])
      have := ih (pre ++ [s])
        (st.1.set k ⟨groupOff orph subs k, (membersOf orph pre ((k : Int) - 1)).length + 1⟩,
              st.2.set (groupOff orph subs k + (membersOf orph pre ((k : Int) - 1)).length) pre.length)
        hs' hr' ?_
      · rw [hlen] at this; exact this
      refine ⟨by simpa using i1, by simpa using i2, fun g hg => ?_⟩
      obtain ⟨jv, jm⟩ := i3 g hg
      rw [membersOf_snoc]
      by_cases hgk : g = k
      · subst hgk
        rw [if_pos hbk]
        refine ⟨by simp [i1, hkG], fun j x hj => ?_⟩
        rcases Nat.lt_or_ge j (membersOf orph pre ((g : Int) - 1)).length with hjl | hjl
        · rw [List.getElem?_append_left hjl] at hj
          rw [List.getElem?_set_ne (by omega)]
          exact jm j x hj
        · rw [List.getElem?_append_right hjl] at hj
          have hj0 : j - (membersOf orph pre ((g : Int) - 1)).length = 0 := by
            by_contra h0
            rw [List.getElem?_eq_none (by simp; omega)] at hj
            cases hj
          rw [hj0] at hj
          have : j = (membersOf orph pre ((g : Int) - 1)).length := by omega
          subst this
          simp only [List.getElem?_cons_zero, Option.some.injEq] at hj
          subst hj
          rw [List.getElem?_set_self hpos]
      · have hb : listed orph g s = false := by
          unfold listed; rw [hc, Bool.and_true, decide_eq_false_iff_not]; omega
        rw [hb]
        simp only [Bool.false_eq_true, if_false, List.append_nil]
        refine ⟨by rw [List.getElem?_set_ne (by omega)]; exact jv, fun j x hj => ?_⟩
        have hjl : j < (membersOf orph pre ((g : Int) - 1)).length := (List.getElem?_eq_some_iff.1 hj).1
        have hjc : (membersOf orph pre ((g : Int) - 1)).length ≤ subs.countP (listed orph g) := by
          rw [membersOf_length, hs', List.countP_append, List.countP_append]; omega
        rw [List.getElem?_set_ne]
        · exact jm j x hj
        · rcases Nat.lt_or_gt_of_ne hgk with h | h
          · have := groupOff_disj orph subs h; omega
          · have := groupOff_disj orph subs h; omega
    · rw [if_neg hc]
      have := ih (pre ++ [s]) st hs' (fun t ht => hr t (by simp [ht])) ?_
      · rw [hlen] at this; exact this
      obtain ⟨i1, i2, i3⟩ := hI
      refine ⟨i1, i2, fun g hg => ?_⟩
      have hb : listed orph g s = false := by
        unfold listed; simp [hc]
      rw [membersOf_snoc, hb]
      simpa using i3 g hg

theorem slice_get {α : Type} {buf xs : List α} {off n : Nat} (h : slice buf off n = .ok xs) :
    off + n ≤ buf.length ∧ xs.length = n ∧ ∀ p, p < n → buf[off+p]? = xs[p]? := by
  unfold slice at h
  split at h
  · rename_i hle
    cases h
    refine ⟨hle, by simp; omega, fun p hp => ?_⟩
    rw [List.getElem?_take_of_lt hp, List.getElem?_drop]
  · cases h

/-- Two views do not overlap. -/
def Disjoint' (v w : View) : Prop := v.off + v.n ≤ w.off ∨ w.off + w.n ≤ v.off

theorem slice_write_disjoint {α : Type} {buf xs out ys : List α} {off o n : Nat}
    (h : writeAt buf off xs = .ok out) (hd : off + xs.length ≤ o ∨ o + n ≤ off)
    (hs : slice buf o n = .ok ys) : slice out o n = .ok ys := by
  obtain ⟨w1, w2, w3⟩ := writeAt_get _ _ _ _ h
  obtain ⟨s1, s2, s3⟩ := slice_get hs
  refine slice_of_get _ _ _ _ s2 (by omega) (fun p hp => ?_)
  rw [w3, if_neg (by omega), s3 p hp]

theorem sortMemberLists_ok (sort : List Nat → List Nat) : ∀ (vs : List View) (all : List Nat),
    vs.Pairwise Disjoint' →
    (∀ v ∈ vs, ∃ xs, slice all v.off v.n = .ok xs ∧ (sort xs).length = xs.length) →
    ∃ all', sortMemberLists sort vs all = .ok all' ∧ all'.length = all.length ∧
      (∀ o n ys, (∀ v ∈ vs, Disjoint' v ⟨o, n⟩) → slice all o n = .ok ys → slice all' o n = .ok ys) ∧
      ∀ v ∈ vs, ∀ xs, slice all v.off v.n = .ok xs → slice all' v.off v.n = .ok (sort xs) := by
  intro vs
  induction vs with
  | nil => intro all _ _; exact ⟨all, rfl, rfl, fun _ _ _ _ h => h, fun v hv => absurd hv (by simp)⟩
  | cons v vs ih =>
    intro all hp hv
    obtain ⟨xs, hxs, hlen⟩ := hv v (by simp)
    obtain ⟨s1, s2, s3⟩ := slice_get hxs
    obtain ⟨all1, hw⟩ := writeAt_ok all (sort xs) v.off (by omega)
    obtain ⟨w1, w2, w3⟩ := writeAt_get _ _ _ _ hw
    rw [List.pairwise_cons] at hp
    have hkeep : ∀ w ∈ vs, ∀ ys, slice all w.off w.n = .ok ys → slice all1 w.off w.n = .ok ys := by
      intro w hw' ys hys
      refine slice_write_disjoint hw ?_ hys
      have := hp.1 w hw'
      unfold Disjoint' at this
      omega
    obtain ⟨all', e, hl, hd, hs⟩ := ih all1 hp.2 (by
      intro w hw'
      obtain ⟨ys, h1, h2⟩ := hv w (by simp [hw'])
      exact ⟨ys, hkeep w hw' ys h1, h2⟩)
    refine ⟨all', ?_, by omega, ?_, ?_⟩
    · rw [sortMemberLists, hxs, Outcome.bind_ok, hw, Outcome.bind_ok, e]
    · intro o n ys hdis hys
      refine hd o n ys (fun w hw' => hdis w (by simp [hw'])) (slice_write_disjoint hw ?_ hys)
      have := hdis v (by simp)
      unfold Disjoint' at this
      simp only at this
      omega
    · intro w hw' ys hys
      rcases List.mem_cons.1 hw' with rfl | hmem
      · rw [hxs] at hys
        cases hys
        refine hd _ _ _ (fun u hu => ?_) ?_
        · have := hp.1 u hu
          unfold Disjoint' at this ⊢
          simp only
          omega
        · refine slice_of_get _ _ _ _ (by omega) (by omega) (fun p hp' => ?_)
          rw [w3, if_pos (by omega)]
          congr 1; omega
      · exact hs w hmem ys (hkeep w hmem ys hys)

end HBT
