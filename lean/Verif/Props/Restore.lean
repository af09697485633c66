import Verif.Model.Restore
import Mathlib.Data.List.Nodup
import Mathlib.Data.List.Range
import Mathlib.Data.List.Perm.Basic
/-!
# C18: restoring the original order in place
-/
namespace HBT.Props
open HBT HBT.Model
variable {β : Type}

/-- Number of positions whose record is not the one that belongs there. -/
def misplaced (ord : β → Nat) (P : List β) : Nat :=
  (List.range P.length).countP (fun k => P[k]?.map ord != some k)

theorem swap_perm (P : List β) (i j : Nat) (hi : i < P.length) (hj : j < P.length) :
    ((P.set i P[j]).set j P[i]).Perm P := by
  exact List.set_set_perm hi hj

theorem countP_lt_of_imp {α : Type} {l : List α} {p q : α → Bool} (h : ∀ x ∈ l, p x → q x)
    {a : α} (ha : a ∈ l) (hq : q a) (hp : ¬ p a) : l.countP p < l.countP q := by
  induction l with
  | nil => simp at ha
  | cons x l ih =>
    have hmono : l.countP p ≤ l.countP q :=
      List.countP_mono_left (fun y hy => h y (by simp [hy]))
    rcases List.mem_cons.mp ha with rfl | ha'
    · rw [List.countP_cons_of_pos hq, List.countP_cons_of_neg hp]; omega
    · have := ih (fun y hy => h y (by simp [hy])) ha'
      have hx := h x (by simp)
      by_cases hpx : p x
      · rw [List.countP_cons_of_pos hpx, List.countP_cons_of_pos (hx hpx)]; omega
      · rw [List.countP_cons_of_neg hpx]
        by_cases hqx : q x
        · rw [List.countP_cons_of_pos hqx]; omega
        · rw [List.countP_cons_of_neg hqx]; omega

theorem restoreInner_spec (ord : β → Nat) (i : Nat) : ∀ (fuel : Nat) (P : List β), i < P.length →
    (P.map ord).Perm (List.range P.length) → misplaced ord P < fuel →
    ∃ Q, restoreInner ord i fuel P = .ok Q ∧ Q.Perm P ∧ (∀ k, k < i → P[k]?.map ord = some k →
      Q[k]?.map ord = some k) ∧ Q[i]?.map ord = some i := by
  intro fuel
  induction fuel with
  | zero => intro P _ _ h; omega
  | succ fuel ih =>
    intro P hi hperm hfuel
    rw [restoreInner, Outcome.get_of_lt hi, Outcome.bind_ok]
    simp only
    split
    · rename_i hij
      exact ⟨P, rfl, List.Perm.refl _, fun k _ h => h, by simp [hi, ← hij]⟩
    · rename_i hij
      have hj : ord P[i] < P.length := by
        have : ord P[i] ∈ List.range P.length :=
          hperm.mem_iff.mp (List.mem_map_of_mem (List.getElem_mem hi))
        simpa using this
      rw [Outcome.get_of_lt hj, Outcome.bind_ok]
      set P' := (P.set i P[ord P[i]]).set (ord P[i]) P[i] with hP'
      have hlen : P'.length = P.length := by simp [hP']
      have hsw : P'.Perm P := swap_perm P i (ord P[i]) hi hj
      have hnd : (P.map ord).Nodup := hperm.nodup_iff.mpr List.nodup_range
      have hinj : ∀ a b (ha : a < P.length) (hb : b < P.length), ord P[a] = ord P[b] → a = b := by
        intro a b ha hb hab
        exact (List.Nodup.getElem_inj_iff hnd (i := a) (j := b) (hi := by simpa using ha)
          (hj := by simpa using hb)).mp (by simpa using hab)
      have hkeep : ∀ k, P[k]?.map ord = some k → P'[k]?.map ord = some k := by
        intro k hk
        have hkl : k < P.length := by
          by_contra hcon
          rw [List.getElem?_eq_none (by omega)] at hk
          simp at hk
        have hk' : ord P[k] = k := by simpa [hkl] using hk
        by_cases e1 : k = ord P[i]
        · have : k = i := hinj k i hkl hi (by rw [hk']; exact e1)
          rw [this] at e1; exact absurd e1 hij
        · by_cases e2 : k = i
          · subst e2; exact absurd hk'.symm hij
          · rw [hP', List.getElem?_set_ne (Ne.symm e1), List.getElem?_set_ne (Ne.symm e2)]; exact hk
      have hfix : P'[ord P[i]]?.map ord = some (ord P[i]) := by
        simp [hP', hj]
      have hlt : misplaced ord P' < misplaced ord P := by
        unfold misplaced
        rw [hlen]
        refine countP_lt_of_imp (a := ord P[i]) ?_ ?_ ?_ ?_
        · intro x _ hx
          simp only [bne_iff_ne, ne_eq] at hx ⊢
          exact fun h => hx (hkeep x h)
        · simpa using hj
        · simp only [bne_iff_ne, ne_eq]
          intro h
          have : ord P[ord P[i]] = ord P[i] := by simpa [hj] using h
          exact hij (hinj _ _ hj hi this).symm
        · simp [hfix]
      obtain ⟨Q, e, hp, hk, hQi⟩ := ih P' (by rw [hlen]; exact hi)
        (by rw [hlen]; exact (hsw.map ord).trans hperm) (by omega)
      exact ⟨Q, e, hp.trans hsw, fun k hki h => hk k hki (hkeep k h), hQi⟩

theorem misplaced_le (ord : β → Nat) (P : List β) : misplaced ord P ≤ P.length := by
  unfold misplaced
  have := List.countP_le_length (p := fun k => P[k]?.map ord != some k) (l := List.range P.length)
  simpa using this

theorem restoreLoop_spec (ord : β → Nat) : ∀ (n i : Nat) (P : List β), i + n = P.length →
    (P.map ord).Perm (List.range P.length) → (∀ k, k < i → P[k]?.map ord = some k) →
    ∃ Q, restoreLoop ord n i P = .ok Q ∧ Q.Perm P ∧ ∀ k, k < P.length → Q[k]?.map ord = some k := by
  intro n
  induction n with
  | zero =>
    intro i P hi _ hk
    exact ⟨P, rfl, List.Perm.refl _, fun k h => hk k (by omega)⟩
  | succ n ih =>
    intro i P hi hperm hk
    obtain ⟨Q, e, hp, hkeep, hQi⟩ := restoreInner_spec ord i (P.length + 1) P (by omega) hperm
      (by have := misplaced_le ord P; omega)
    have hl : Q.length = P.length := hp.length_eq
    obtain ⟨Q2, e2, hp2, hall⟩ := ih (i+1) Q (by omega)
      (by rw [hl]; exact (hp.map ord).trans hperm)
      (by
        intro k hki
        by_cases h : k = i
        · rw [h]; exact hQi
        · exact hkeep k (by omega) (hk k (by omega)))
    exact ⟨Q2, by rw [restoreLoop, e, Outcome.bind_ok, e2], hp2.trans hp, by rw [← hl]; exact hall⟩

/-- C18. For every list of records whose tags are the positions `0..n-1` in any order, the
in-place restoration terminates without an out-of-range access, loses and invents no record, and
puts at position `i` the record tagged `i`. -/
theorem C18_restore (ord : β → Nat) (P : List β) (h : (P.map ord).Perm (List.range P.length)) :
    ∃ Q, restoreOrder ord P = .ok Q ∧ Q.Perm P ∧ Q.map ord = List.range P.length := by
  obtain ⟨Q, e, hp, hk⟩ := restoreLoop_spec ord P.length 0 P (by omega) h (by omega)
  refine ⟨Q, e, hp, ?_⟩
  apply List.ext_getElem?
  intro k
  by_cases hkl : k < P.length
  · have := hk k hkl
    rw [List.getElem?_map, this]; simp [hkl]
  · have hl : Q.length = P.length := hp.length_eq
    rw [List.getElem?_eq_none (by simp; omega), List.getElem?_eq_none (by simp; omega)]

/-- C18 in terms of the list before it was shuffled: if `P` is any rearrangement of `orig` tagged
with the original positions, restoration returns the tagged `orig`. -/
theorem C18_restore_original {α : Type} (orig : List α) (P : List (α × Nat))
    (h : P.Perm orig.zipIdx) : restoreOrder Prod.snd P = .ok orig.zipIdx := by
  have hlen : P.length = orig.length := by simpa using h.length_eq
  have hr : (P.map Prod.snd).Perm (List.range P.length) := by
    have := h.map Prod.snd
    rw [List.zipIdx_map_snd, ← List.range_eq_range', ← hlen] at this
    exact this
  obtain ⟨Q, e, hp, hm⟩ := C18_restore Prod.snd P hr
  rw [e]
  congr 1
  have hpz : Q.Perm orig.zipIdx := hp.trans h
  have hQl : Q.length = orig.length := by simpa using hpz.length_eq
  apply List.ext_getElem
  · simpa using hQl
  · intro k h1 h2
    have hk : (Q[k]).2 = k := by
      have : (Q.map Prod.snd)[k]'(by simpa using h1) = k := by simp [hm]
      simpa using this
    have hmem : Q[k] ∈ orig.zipIdx := hpz.mem_iff.mp (List.getElem_mem h1)
    have := List.mem_zipIdx_iff_getElem?.mp hmem
    rw [hk] at this
    have hk2 : k < orig.length := by simpa using h2
    simp only [List.getElem_zipIdx]
    ext
    · have h3 : orig[k]? = some orig[k] := by simp
      rw [h3] at this
      simpa using this.symm
    · simpa using hk

/-- Tags outside the list make the code read out of bounds. -/
example : restoreOrder (id : Nat → Nat) [5, 0] = .ub := by decide

/-- A 3-cycle and a 2-cycle. -/
example : restoreOrder Prod.snd [('c', 2), ('a', 0), ('e', 4), ('b', 1), ('d', 3)]
    = .ok [('a', 0), ('b', 1), ('c', 2), ('d', 3), ('e', 4)] :=
  C18_restore_original ['a', 'b', 'c', 'd', 'e'] _ (by decide)

end HBT.Props
