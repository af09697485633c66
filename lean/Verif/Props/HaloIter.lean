import Verif.Model.HaloIter
/-!
# C14: iterating over a bunch of haloes
-/
namespace HBT.Props
open HBT HBT.Model
variable {α : Type}

/-- What remains to be visited. -/
def remaining (it : HaloIter α) : List α :=
  match it.currHalo with
  | [] => []
  | _ :: hs => it.currPart ++ hs.flatten

/-- Between two operations: either at the end with nothing to read, or at a valid element. -/
def Settled (it : HaloIter α) : Prop :=
  (it.currHalo = [] ∧ it.currPart = []) ∨ (it.currHalo ≠ [] ∧ it.currPart ≠ [])

theorem skipEmpty_flatten (l : List (List α)) : (skipEmpty l).flatten = l.flatten := by
  induction l with
  | nil => rfl
  | cons h hs ih =>
    rw [skipEmpty]
    split
    · rename_i h0
      rw [ih, List.length_eq_zero_iff.mp h0]; simp
    · rfl

theorem skipEmpty_head (l : List (List α)) : ∀ h hs, skipEmpty l = h :: hs → h ≠ [] := by
  induction l with
  | nil => simp [skipEmpty]
  | cons a l ih =>
    intro h hs
    rw [skipEmpty]
    split
    · exact ih h hs
    · rename_i h0
      intro he
      simp only [List.cons.injEq] at he
      rw [← he.1]
      intro hn; simp [hn] at h0

theorem settled_init (haloes : List (List α)) : Settled (HaloIter.init haloes) := by
  unfold HaloIter.init HaloIter.reset
  cases h : skipEmpty haloes with
  | nil => left; simp
  | cons a l => right; simpa using skipEmpty_head _ _ _ h

theorem remaining_init (haloes : List (List α)) :
    remaining (HaloIter.init haloes) = haloes.flatten := by
  rw [← skipEmpty_flatten haloes]
  unfold HaloIter.init HaloIter.reset
  cases h : skipEmpty haloes with
  | nil => simp [remaining]
  | cons a l => simp [remaining]

theorem advance_spec (hs : List (List α)) (h : List α) (part : List α) :
    ((advance (h :: hs) part).1 = [] ∧ (advance (h :: hs) part).2 = [] ∧
        part ++ hs.flatten = []) ∨
    (∃ h' hs', (advance (h :: hs) part).1 = h' :: hs' ∧ (advance (h :: hs) part).2 ≠ [] ∧
        (advance (h :: hs) part).2 ++ hs'.flatten = part ++ hs.flatten) := by
  induction hs generalizing h part with
  | nil =>
    cases part with
    | nil => left; simp [advance]
    | cons p part => right; exact ⟨h, [], by simp [advance]⟩
  | cons h' hs ih =>
    cases part with
    | nil =>
      rw [advance]
      simpa using ih h' h'
    | cons p part => right; exact ⟨h, h' :: hs, by simp [advance]⟩

theorem remaining_nil_iff (it : HaloIter α) (hs : Settled it) :
    remaining it = [] ↔ it.isEnd = true := by
  unfold remaining HaloIter.isEnd
  rcases hs with ⟨h1, _⟩ | ⟨h1, h2⟩
  · simp [h1]
  · cases hc : it.currHalo with
    | nil => exact absurd hc h1
    | cons a l => simp [h2]

/-- One increment consumes exactly the element the iterator points at. -/
theorem next_spec (it : HaloIter α) (hs : Settled it) (p : α) (ps : List α)
    (hr : remaining it = p :: ps) :
    it.deref = .ok p ∧ ∃ it', it.next = .ok it' ∧ Settled it' ∧ remaining it' = ps := by
  rcases hs with ⟨h1, h2⟩ | ⟨h1, h2⟩
  · rw [remaining, h1] at hr; simp at hr
  · cases hc : it.currHalo with
    | nil => exact absurd hc h1
    | cons a l =>
      cases hp : it.currPart with
      | nil => exact absurd hp h2
      | cons q part =>
        rw [remaining, hc] at hr
        simp only [hp, List.cons_append, List.cons.injEq] at hr
        obtain ⟨rfl, hr⟩ := hr
        refine ⟨by simp [HaloIter.deref, hp], { it with
          currHalo := (advance it.currHalo part).1, currPart := (advance it.currHalo part).2 },
          by simp only [HaloIter.next, hp], ?_⟩
        simp only [hc]
        rcases advance_spec l a part with ⟨e1, e2, e3⟩ | ⟨h', hs', e1, e2, e3⟩
        · refine ⟨Or.inl ⟨e1, e2⟩, ?_⟩
          rw [remaining, e1]; simp only; rw [← hr, e3]
        · refine ⟨Or.inr ⟨by simp [e1], e2⟩, ?_⟩
          rw [remaining]; simp only [e1]; rw [e3, hr]

theorem walk_spec (n : Nat) (it : HaloIter α) (hs : Settled it) (hn : (remaining it).length < n) :
    HaloIter.walk n it = .ok (remaining it) := by
  induction n generalizing it with
  | zero => omega
  | succ n ih =>
    rw [HaloIter.walk]
    cases hr : remaining it with
    | nil => rw [(remaining_nil_iff it hs).mp hr]; simp
    | cons p ps =>
      have hne : ¬ it.isEnd = true := by
        intro h; rw [(remaining_nil_iff it hs).mpr h] at hr; simp at hr
      rw [if_neg hne]
      obtain ⟨hd, it', hn', hs', hr'⟩ := next_spec it hs p ps hr
      rw [hd, Outcome.bind_ok, hn', Outcome.bind_ok, ih it' hs' (by rw [hr']; rw [hr] at hn; simpa using hn)]
      simp [hr']

/-- C14. For every range of haloes, with any pattern of empty lists, the loop over the iterator
terminates and visits exactly the elements of the haloes' lists, in halo order then list order. -/
theorem C14_walk (haloes : List (List α)) (n : Nat) (hn : haloes.flatten.length < n) :
    HaloIter.walk n (HaloIter.init haloes) = .ok haloes.flatten := by
  rw [walk_spec n _ (settled_init haloes) (by rw [remaining_init]; exact hn), remaining_init]

theorem nextN_spec (n : Nat) (it : HaloIter α) (hs : Settled it) (hn : n ≤ (remaining it).length) :
    ∃ it', HaloIter.nextN n it = .ok it' ∧ Settled it' ∧ remaining it' = (remaining it).drop n := by
  induction n generalizing it with
  | zero => exact ⟨it, rfl, hs, by simp⟩
  | succ n ih =>
    cases hr : remaining it with
    | nil => rw [hr] at hn; simp at hn
    | cons p ps =>
      obtain ⟨_, it', hn', hs', hr'⟩ := next_spec it hs p ps hr
      obtain ⟨it2, h2, hs2, hr2⟩ := ih it' hs' (by rw [hr']; rw [hr] at hn; simpa using hn)
      exact ⟨it2, by rw [HaloIter.nextN, hn', Outcome.bind_ok, h2], hs2, by rw [hr2, hr']; simp⟩

/-- C14, random use: `n` increments of a fresh iterator (with `n` at most the number of elements)
are defined; the iterator is then at its end exactly if all elements were passed, and otherwise
points at the `n`-th element. This is how the exchange routines read the iterator. -/
theorem C14_position (haloes : List (List α)) (n : Nat) (hn : n ≤ haloes.flatten.length) :
    ∃ it, HaloIter.nextN n (HaloIter.init haloes) = .ok it ∧
      (it.isEnd = true ↔ n = haloes.flatten.length) ∧
      (∀ h : n < haloes.flatten.length, it.deref = .ok haloes.flatten[n]) := by
  obtain ⟨it, h1, hs, hr⟩ := nextN_spec n _ (settled_init haloes) (by rw [remaining_init]; exact hn)
  rw [remaining_init] at hr
  refine ⟨it, h1, ?_, ?_⟩
  · rw [← remaining_nil_iff it hs, hr, List.drop_eq_nil_iff]; omega
  · intro h
    exact (next_spec it hs _ _ (hr.trans (List.drop_eq_getElem_cons h))).1

/-- C14: reading or incrementing at the end is undefined behaviour (the code does not check). -/
theorem C14_past_end (haloes : List (List α)) :
    ∃ it, HaloIter.nextN haloes.flatten.length (HaloIter.init haloes) = .ok it ∧
      it.deref = .ub ∧ it.next = .ub := by
  obtain ⟨it, h1, hs, hr⟩ := nextN_spec haloes.flatten.length _ (settled_init haloes)
    (by rw [remaining_init]; exact Nat.le_refl _)
  rw [remaining_init, List.drop_length] at hr
  have he := (remaining_nil_iff it hs).mp hr
  have hp : it.currPart = [] := by
    rcases hs with ⟨_, h⟩ | ⟨h, _⟩
    · exact h
    · simp [HaloIter.isEnd] at he; exact absurd he h
  exact ⟨it, h1, by simp [HaloIter.deref, hp], by simp [HaloIter.next, hp]⟩

/-- C14: `reset` returns to the start, from any position. -/
theorem C14_reset (haloes : List (List α)) (n : Nat) (it : HaloIter α)
    (h : HaloIter.nextN n (HaloIter.init haloes) = .ok it) (m : Nat)
    (hm : haloes.flatten.length < m) : HaloIter.walk m it.reset = .ok haloes.flatten := by
  have key : ∀ (n : Nat) (a b : HaloIter α), HaloIter.nextN n a = .ok b → b.firstHalo = a.firstHalo := by
    intro n
    induction n with
    | zero => intro a b h; simp [HaloIter.nextN] at h; rw [h]
    | succ n ih =>
      intro a b h
      rw [HaloIter.nextN, HaloIter.next] at h
      cases hp : a.currPart with
      | nil => rw [hp] at h; simp at h
      | cons p q =>
        rw [hp] at h
        simp only [Outcome.bind_ok] at h
        rw [ih _ _ h]
  have hf := key n _ _ h
  have hf2 : it.firstHalo = skipEmpty haloes := by
    rw [hf]; unfold HaloIter.init HaloIter.reset; split <;> rfl
  cases hsk : skipEmpty haloes with
  | nil =>
    have hfl : haloes.flatten = [] := by rw [← skipEmpty_flatten, hsk]; rfl
    rw [hfl]
    cases m with
    | zero => omega
    | succ m => simp [HaloIter.walk, HaloIter.reset, hf2, hsk, HaloIter.isEnd]
  | cons a l =>
    rw [← skipEmpty_flatten, hsk] at hm ⊢
    have : it.reset = ⟨a :: l, a :: l, a⟩ := by
      unfold HaloIter.reset
      rw [hf2, hsk]
    rw [this]
    apply walk_spec
    · right; exact ⟨by simp, skipEmpty_head _ _ _ hsk⟩
    · simpa [remaining] using hm

example : HaloIter.walk 6 (HaloIter.init [[], [], [1, 2], [], [3], [4, 5], [], []]) = .ok [1, 2, 3, 4, 5] :=
  C14_walk _ 6 (by decide)

end HBT.Props
