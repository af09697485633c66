import Verif.Model.Psort
import Verif.Spec.Select
import Mathlib.Order.Basic
import Mathlib.Data.List.Perm.Basic
import Mathlib.Order.Lattice
import Mathlib.Order.Lattice.Nat
/-!
# Proof of `psort`
-/
namespace HBT
open HBT.Model HBT.Spec

variable {α : Type}

/-- 1-based view of the array used in the proofs only. -/
def v1 (d : α) (arr : List α) (i : Nat) : α := (arr[i-1]?).getD d

theorem get1_ok (d : α) {arr : List α} {i : Nat} (h1 : 1 ≤ i) (h2 : i ≤ arr.length) :
    get1 arr i = .ok (v1 d arr i) := by
  unfold get1 v1
  rw [if_neg (by omega)]
  have : i - 1 < arr.length := by omega
  simp [this]

theorem set1_ok (arr : List α) (i : Nat) (a : α) (h1 : 1 ≤ i) (h2 : i ≤ arr.length) :
    set1 arr i a = .ok (arr.set (i-1) a) := by
  unfold set1
  rw [if_neg (by omega), Outcome.set_of_lt (by omega)]

theorem v1_set (d : α) (arr : List α) (i p : Nat) (a : α) (hi : 1 ≤ i) (hi2 : i ≤ arr.length)
    (hp : 1 ≤ p) : v1 d (arr.set (i-1) a) p = if p = i then a else v1 d arr p := by
  unfold v1
  rw [List.getElem?_set]
  by_cases h : p = i
  · subst h; simp; rw [if_pos (by omega)]; simp
  · rw [if_neg (by omega), if_neg h]

theorem v1_getElem (d : α) (arr : List α) (i : Nat) (h : i < arr.length) :
    v1 d arr (i+1) = arr[i] := by simp [v1, h]

/-- Exchanging two entries: what a swap does to the 1-based view. -/
structure Swapped (d : α) (arr arr' : List α) (i j : Nat) : Prop where
  perm : arr'.Perm arr
  val : ∀ p, 1 ≤ p → v1 d arr' p = if p = j then v1 d arr i else if p = i then v1 d arr j
    else v1 d arr p

theorem Swapped.len {d : α} {arr arr' : List α} {i j : Nat} (h : Swapped d arr arr' i j) :
    arr'.length = arr.length := h.perm.length_eq

theorem setset_swapped (d : α) (arr : List α) (i j : Nat) (hi : 1 ≤ i) (hi2 : i ≤ arr.length)
    (hj : 1 ≤ j) (hj2 : j ≤ arr.length) :
    Swapped d arr ((arr.set (i-1) (v1 d arr j)).set (j-1) (v1 d arr i)) i j := by
  constructor
  · have e1 : v1 d arr j = arr[j-1] := by
      rw [← v1_getElem d arr (j-1) (by omega)]; congr 1; omega
    have e2 : v1 d arr i = arr[i-1] := by
      rw [← v1_getElem d arr (i-1) (by omega)]; congr 1; omega
    rw [e1, e2]
    exact List.set_set_perm (by omega) (by omega)
  · intro p hp
    rw [v1_set d _ j p _ hj (by simpa using hj2) hp, v1_set d _ i p _ hi hi2 hp]

theorem swap1_ok (d : α) (arr : List α) (i j : Nat) (hi : 1 ≤ i) (hi2 : i ≤ arr.length)
    (hj : 1 ≤ j) (hj2 : j ≤ arr.length) :
    ∃ arr', swap1 arr i j = .ok arr' ∧ Swapped d arr arr' i j := by
  refine ⟨_, ?_, setset_swapped d arr i j hi hi2 hj hj2⟩
  unfold swap1
  rw [get1_ok d hi hi2, Outcome.bind_ok, get1_ok d hj hj2, Outcome.bind_ok,
    set1_ok _ _ _ hi hi2, Outcome.bind_ok, set1_ok _ _ _ hj (by simpa using hj2)]

/-- `arr'` is a rearrangement of `arr` that only touches positions in `[lo,hi]`, moving values
within that window. -/
structure Window (d : α) (arr arr' : List α) (lo hi : Nat) : Prop where
  perm : arr'.Perm arr
  out : ∀ p, 1 ≤ p → (p < lo ∨ hi < p) → v1 d arr' p = v1 d arr p
  src : ∀ p, lo ≤ p → p ≤ hi → ∃ q, lo ≤ q ∧ q ≤ hi ∧ v1 d arr' p = v1 d arr q

theorem Window.refl (d : α) (arr : List α) (lo hi : Nat) : Window d arr arr lo hi :=
  ⟨List.Perm.refl _, fun _ _ _ => rfl, fun p h1 h2 => ⟨p, h1, h2, rfl⟩⟩

theorem Window.trans {d : α} {a b c : List α} {lo hi : Nat} (h1 : Window d a b lo hi)
    (h2 : Window d b c lo hi) : Window d a c lo hi := by
  refine ⟨h2.perm.trans h1.perm, fun p hp ho => (h2.out p hp ho).trans (h1.out p hp ho), ?_⟩
  intro p hl hh
  obtain ⟨q, q1, q2, q3⟩ := h2.src p hl hh
  obtain ⟨r, r1, r2, r3⟩ := h1.src q q1 q2
  exact ⟨r, r1, r2, q3.trans r3⟩

theorem Swapped.window {d : α} {arr arr' : List α} {i j lo hi : Nat} (h : Swapped d arr arr' i j)
    (hlo : 1 ≤ lo) (i1 : lo ≤ i) (i2 : i ≤ hi) (j1 : lo ≤ j) (j2 : j ≤ hi) :
    Window d arr arr' lo hi := by
  refine ⟨h.perm, fun p hp ho => ?_, fun p h1 h2 => ?_⟩
  · rw [h.val p hp, if_neg (by omega), if_neg (by omega)]
  · rw [h.val p (by omega)]
    split
    · exact ⟨i, i1, i2, rfl⟩
    · split
      · exact ⟨j, j1, j2, rfl⟩
      · exact ⟨p, h1, h2, rfl⟩

theorem Window.len {d : α} {a b : List α} {lo hi : Nat} (h : Window d a b lo hi) :
    b.length = a.length := h.perm.length_eq

theorem Window.mono {d : α} {a b : List α} {lo hi lo' hi' : Nat} (h : Window d a b lo hi)
    (h1 : lo' ≤ lo) (h2 : hi ≤ hi') (h0 : 1 ≤ lo') : Window d a b lo' hi' := by
  refine ⟨h.perm, fun p hp ho => h.out p hp (by omega), fun p hp1 hp2 => ?_⟩
  by_cases hin : lo ≤ p ∧ p ≤ hi
  · obtain ⟨q, q1, q2, q3⟩ := h.src p hin.1 hin.2
    exact ⟨q, by omega, by omega, q3⟩
  · exact ⟨p, hp1, hp2, h.out p (by omega) (by omega)⟩

variable [LinearOrder α]

theorem order1_ok (d : α) (arr : List α) (i j : Nat) (hi : 1 ≤ i) (hi2 : i ≤ arr.length)
    (hj : 1 ≤ j) (hj2 : j ≤ arr.length) (hij : i ≠ j) :
    ∃ arr', order1 arr i j = .ok arr' ∧ arr'.length = arr.length ∧
      (Swapped d arr arr' i j ∨ arr' = arr) ∧
      v1 d arr' i = min (v1 d arr i) (v1 d arr j) ∧ v1 d arr' j = max (v1 d arr i) (v1 d arr j) ∧
      ∀ p, 1 ≤ p → p ≠ i → p ≠ j → v1 d arr' p = v1 d arr p := by
  unfold order1
  rw [get1_ok d hi hi2, Outcome.bind_ok, get1_ok d hj hj2, Outcome.bind_ok]
  split
  · rename_i h
    obtain ⟨arr', h1, h2⟩ := swap1_ok d arr i j hi hi2 hj hj2
    refine ⟨arr', h1, h2.len, Or.inl h2, ?_, ?_, ?_⟩
    · rw [h2.val i hi, if_neg hij, if_pos rfl, min_eq_right (le_of_lt h)]
    · rw [h2.val j hj, if_pos rfl, max_eq_left (le_of_lt h)]
    · intro p hp h1 h3; rw [h2.val p hp, if_neg h3, if_neg h1]
  · rename_i h
    rw [gt_iff_lt, not_lt] at h
    exact ⟨arr, rfl, rfl, Or.inr rfl, (min_eq_left h).symm, (max_eq_right h).symm, fun _ _ _ _ => rfl⟩

theorem scanUp_ok (d : α) (arr : List α) (a : α) (s : Nat) (hs : s ≤ arr.length)
    (hsv : a ≤ v1 d arr s) : ∀ (fuel i : Nat), i < s → s - i ≤ fuel →
    ∃ i', scanUp arr a fuel i = .ok i' ∧ i < i' ∧ i' ≤ s ∧ a ≤ v1 d arr i' ∧
      ∀ p, i < p → p < i' → v1 d arr p < a := by
  intro fuel
  induction fuel with
  | zero => intro i h1 h2; omega
  | succ fuel ih =>
    intro i h1 h2
    rw [scanUp, get1_ok d (by omega) (by omega), Outcome.bind_ok]
    split
    · rename_i hlt
      have hne : i + 1 ≠ s := by
        intro he; rw [he] at hlt; exact absurd hsv (not_le.mpr hlt)
      obtain ⟨i', e, a1, a2, a3, a4⟩ := ih (i+1) (by omega) (by omega)
      refine ⟨i', e, by omega, a2, a3, ?_⟩
      intro p hp1 hp2
      rcases Nat.eq_or_lt_of_le hp1 with h | h
      · rw [← h]; exact hlt
      · exact a4 p h hp2
    · rename_i hge
      exact ⟨i+1, rfl, by omega, by omega, not_lt.mp hge, fun p hp1 hp2 => by omega⟩

theorem scanDown_ok (d : α) (arr : List α) (a : α) (s : Nat) (hs : 1 ≤ s)
    (hsv : v1 d arr s ≤ a) : ∀ (j : Nat), s < j → j ≤ arr.length + 1 →
    ∃ j', scanDown arr a j = .ok j' ∧ j' < j ∧ s ≤ j' ∧ v1 d arr j' ≤ a ∧
      ∀ p, j' < p → p < j → a < v1 d arr p := by
  intro j
  induction j with
  | zero => intro h; omega
  | succ j ih =>
    intro h1 h2
    rw [scanDown, get1_ok d (by omega) (by omega), Outcome.bind_ok]
    split
    · rename_i hgt
      have hne : j ≠ s := by
        intro he; rw [he] at hgt; exact absurd hsv (not_le.mpr hgt)
      obtain ⟨j', e, a1, a2, a3, a4⟩ := ih (by omega) (by omega)
      refine ⟨j', e, by omega, a2, a3, ?_⟩
      intro p hp1 hp2
      rcases Nat.eq_or_lt_of_le (Nat.lt_succ_iff.mp hp2) with h | h
      · rw [h]; exact hgt
      · exact a4 p hp1 h
    · rename_i hle
      exact ⟨j, rfl, by omega, by omega, not_lt.mp hle, fun p hp1 hp2 => by omega⟩

/-- The inner loop: on exit positions `lo..i'-1` hold values `≤ a`, positions `j'+1..hi` values
`≥ a`, and `j' < i'`. -/
theorem partLoop_ok (d : α) (a : α) (lo hi : Nat) (hlo : 1 ≤ lo) :
    ∀ (fuel : Nat) (arr : List α) (i j : Nat), j ≤ fuel → hi ≤ arr.length →
      lo ≤ i → i ≤ j → j ≤ hi → i < hi → lo < j →
      (∀ p, lo ≤ p → p ≤ i → v1 d arr p ≤ a) → (∀ p, j ≤ p → p ≤ hi → a ≤ v1 d arr p) →
      ∃ arr' i' j', partLoop a fuel arr i j = .ok (arr', i', j') ∧ Window d arr arr' lo hi ∧
        j' < i' ∧ lo < i' ∧ i' ≤ hi ∧ lo ≤ j' ∧ j' < hi ∧
        (∀ p, lo ≤ p → p < i' → v1 d arr' p ≤ a) ∧ (∀ p, j' < p → p ≤ hi → a ≤ v1 d arr' p) := by
  intro fuel
  induction fuel with
  | zero => intro arr i j h; omega
  | succ fuel ih =>
    intro arr i j hf hl h1 h2 h3 h4 h5 hA hB
    -- sentinels
    have hup : a ≤ v1 d arr (max j (i+1)) := hB _ (le_max_left _ _) (by omega)
    have hdn : v1 d arr (min i (j-1)) ≤ a := hA _ (by omega) (min_le_left _ _)
    obtain ⟨i', e1, i1, i2, i3, i4⟩ := scanUp_ok d arr a _ (by omega) hup (arr.length + 1) i
      (by omega) (by omega)
    obtain ⟨j', e2, j1, j2, j3, j4⟩ := scanDown_ok d arr a _ (by omega) hdn j (by omega) (by omega)
    rw [partLoop, e1, Outcome.bind_ok, e2, Outcome.bind_ok]
    split
    · rename_i hji
      refine ⟨arr, i', j', rfl, Window.refl _ _ _ _, hji, by omega, by omega, by omega, by omega,
        ?_, ?_⟩
      · intro p p1 p2
        by_cases hp : p ≤ i
        · exact hA p p1 hp
        · exact le_of_lt (i4 p (by omega) p2)
      · intro p p1 p2
        by_cases hp : j ≤ p
        · exact hB p hp p2
        · exact le_of_lt (j4 p p1 (by omega))
    · rename_i hji
      obtain ⟨arr', e3, sw⟩ := swap1_ok d arr i' j' (by omega) (by omega) (by omega) (by omega)
      rw [e3, Outcome.bind_ok]
      have hw : Window d arr arr' lo hi := sw.window hlo (by omega) (by omega) (by omega) (by omega)
      obtain ⟨arr2, i2', j2', e, w, rest⟩ := ih arr' i' j' (by omega) (by rw [sw.len]; exact hl)
        (by omega) (by omega) (by omega) (by omega) (by omega)
        (by
          intro p p1 p2
          rw [sw.val p (by omega)]
          split
          · rename_i hp
            have hij : i' = j' := by omega
            rw [hij]; exact j3
          · split
            · exact j3
            · by_cases hp : p ≤ i
              · exact hA p p1 hp
              · exact le_of_lt (i4 p (by omega) (by omega)))
        (by
          intro p p1 p2
          rw [sw.val p (by omega)]
          split
          · exact i3
          · split
            · have hij : i' = j' := by omega
              rw [← hij]; exact i3
            · by_cases hp : j ≤ p
              · exact hB p hp p2
              · exact le_of_lt (j4 p (by omega) (by omega)))
      exact ⟨arr2, i2', j2', e, hw.trans w, rest⟩

/-- Loop invariant of the outer loop. -/
structure PInv (d : α) (k l ir : Nat) (arr : List α) : Prop where
  l1 : 1 ≤ l
  irn : ir ≤ arr.length
  k1 : 1 ≤ k
  kn : k ≤ arr.length
  left : ∀ p q, 1 ≤ p → p < l → l ≤ q → q ≤ arr.length → v1 d arr p ≤ v1 d arr q
  right : ∀ p q, 1 ≤ p → p ≤ ir → ir < q → q ≤ arr.length → v1 d arr p ≤ v1 d arr q
  loc : (l ≤ k ∧ k ≤ ir) ∨ (k < l ∧ (∀ p, 1 ≤ p → p < k → v1 d arr p ≤ v1 d arr k) ∧
    (∀ q, k < q → q ≤ arr.length → v1 d arr k ≤ v1 d arr q))

theorem PInv.window {d : α} {k l ir : Nat} {arr arr' : List α} (h : PInv d k l ir arr)
    (w : Window d arr arr' l ir) : PInv d k l ir arr' := by
  have hlen := w.len
  have hirn := h.irn
  have hl1 := h.l1
  refine ⟨h.l1, by rw [hlen]; exact h.irn, h.k1, by rw [hlen]; exact h.kn, ?_, ?_, ?_⟩
  · intro p q p1 p2 q1 q2
    rw [w.out p p1 (Or.inl p2)]
    by_cases hq : q ≤ ir
    · obtain ⟨r, r1, r2, r3⟩ := w.src q q1 hq
      rw [r3]; exact h.left p r p1 p2 r1 (by omega)
    · rw [w.out q (by omega) (by omega)]
      exact h.left p q p1 p2 q1 (by omega)
  · intro p q p1 p2 q1 q2
    rw [w.out q (by omega) (Or.inr q1)]
    by_cases hp : l ≤ p
    · obtain ⟨r, r1, r2, r3⟩ := w.src p hp p2
      rw [r3]; exact h.right r q (by omega) r2 q1 (by omega)
    · rw [w.out p p1 (by omega)]
      exact h.right p q p1 p2 q1 (by omega)
  · rcases h.loc with hk | ⟨hk, hL, hR⟩
    · exact Or.inl hk
    · refine Or.inr ⟨hk, ?_, ?_⟩
      · intro p p1 p2
        rw [w.out p p1 (by omega), w.out k h.k1 (by omega)]
        exact hL p p1 p2
      · intro q q1 q2
        rw [w.out k h.k1 (by omega)]
        by_cases hq : l ≤ q ∧ q ≤ ir
        · obtain ⟨r, r1, r2, r3⟩ := w.src q hq.1 hq.2
          rw [r3]; exact hR r (by omega) (by omega)
        · rw [w.out q (by omega) (by omega)]
          exact hR q q1 (by omega)

theorem psortLoop_ok (d : α) (k : Nat) : ∀ (fuel : Nat) (arr : List α) (l ir : Nat),
    PInv d k l ir arr → ir + 1 ≤ fuel + l →
    0 < fuel →
    ∃ out, psortLoop k fuel arr l ir = .ok (out, v1 d out k) ∧ out.Perm arr ∧
      (∀ p, 1 ≤ p → p < k → v1 d out p ≤ v1 d out k) ∧
      (∀ q, k < q → q ≤ out.length → v1 d out k ≤ v1 d out q) := by
  intro fuel
  induction fuel with
  | zero => intro arr l ir _ _ h; omega
  | succ fuel ih =>
    intro arr l ir inv hf _
    have hirn := inv.irn
    have hl1 := inv.l1
    have hk1 := inv.k1
    have hkn := inv.kn
    rw [psortLoop]
    split
    · rename_i hle
      -- final step
      have fin : ∀ arr', Window d arr arr' l ir → (ir = l + 1 → v1 d arr' l ≤ v1 d arr' ir) →
          ∃ out, (do let v ← get1 arr' k; Outcome.ok (arr', v)) = .ok (out, v1 d out k) ∧
            out.Perm arr ∧
            (∀ p, 1 ≤ p → p < k → v1 d out p ≤ v1 d out k) ∧
            (∀ q, k < q → q ≤ out.length → v1 d out k ≤ v1 d out q) := by
        intro arr' w hord
        have inv' := inv.window w
        have hlen := w.len
        refine ⟨arr', by rw [get1_ok d hk1 (by omega)]; rfl, w.perm, ?_, ?_⟩
        · intro p p1 p2
          rcases inv'.loc with ⟨h1, h2⟩ | ⟨_, hL, _⟩
          · by_cases hp : p < l
            · exact inv'.left p k p1 hp h1 (by omega)
            · have : p = l ∧ k = ir ∧ ir = l + 1 := by omega
              rw [this.1, this.2.1]; exact hord this.2.2
          · exact hL p p1 p2
        · intro q q1 q2
          rcases inv'.loc with ⟨h1, h2⟩ | ⟨_, _, hR⟩
          · by_cases hq : ir < q
            · exact inv'.right k q hk1 h2 hq q2
            · have : k = l ∧ q = ir ∧ ir = l + 1 := by omega
              rw [this.1, this.2.1]; exact hord this.2.2
          · exact hR q q1 q2
      split
      · rename_i hir
        rw [get1_ok d (by omega : 1 ≤ ir) (by omega), Outcome.bind_ok,
          get1_ok d hl1 (by omega), Outcome.bind_ok]
        split
        · rename_i hlt
          obtain ⟨arr', e, sw⟩ := swap1_ok d arr l ir hl1 (by omega) (by omega) (by omega)
          rw [e, Outcome.bind_ok]
          apply fin arr' (sw.window hl1 (by omega) (by omega) (by omega) (by omega))
          intro _
          rw [sw.val l hl1, sw.val ir (by omega), if_neg (by omega), if_pos rfl, if_pos rfl]
          exact le_of_lt hlt
        · rename_i hge
          rw [Outcome.bind_ok]
          exact fin arr (Window.refl _ _ _ _) (fun _ => not_lt.mp hge)
      · rename_i hir
        rw [Outcome.bind_ok]
        exact fin arr (Window.refl _ _ _ _) (fun h => absurd h hir)
    · rename_i hgt
      simp only
      obtain ⟨a1, e1, sw1⟩ := swap1_ok d arr ((l+ir)/2) (l+1) (by omega) (by omega) (by omega) (by omega)
      have w1 : Window d arr a1 l ir := sw1.window hl1 (by omega) (by omega) (by omega) (by omega)
      have len1 := w1.len
      obtain ⟨a2, e2, l2, sw2, m2, x2, o2⟩ := order1_ok d a1 (l+1) ir (by omega) (by omega)
        (by omega) (by omega) (by omega)
      have w2 : Window d a1 a2 l ir := by
        rcases sw2 with h | h
        · exact h.window hl1 (by omega) (by omega) (by omega) (by omega)
        · rw [h]; exact Window.refl _ _ _ _
      obtain ⟨a3, e3, l3, sw3, m3, x3, o3⟩ := order1_ok d a2 l ir (by omega) (by omega)
        (by omega) (by omega) (by omega)
      have w3 : Window d a2 a3 l ir := by
        rcases sw3 with h | h
        · exact h.window hl1 (by omega) (by omega) (by omega) (by omega)
        · rw [h]; exact Window.refl _ _ _ _
      obtain ⟨a4, e4, l4, sw4, m4, x4, o4⟩ := order1_ok d a3 (l+1) l (by omega) (by omega)
        (by omega) (by omega) (by omega)
      have w4 : Window d a3 a4 l ir := by
        rcases sw4 with h | h
        · exact h.window hl1 (by omega) (by omega) (by omega) (by omega)
        · rw [h]; exact Window.refl _ _ _ _
      rw [e1, Outcome.bind_ok, e2, Outcome.bind_ok, e3, Outcome.bind_ok, e4, Outcome.bind_ok,
        get1_ok d hl1 (by omega), Outcome.bind_ok]
      -- median-of-three facts
      have hA0 : v1 d a4 (l+1) ≤ v1 d a4 l := by rw [m4, x4]; exact min_le_max
      have hB0 : v1 d a4 l ≤ v1 d a4 ir := by
        rw [x4, o4 ir (by omega) (by omega) (by omega), max_le_iff]
        constructor
        · rw [o3 (l+1) (by omega) (by omega) (by omega), x3, m2, x2]
          exact le_trans min_le_max (le_max_right _ _)
        · rw [m3, x3]; exact min_le_max
      set a := v1 d a4 l with ha
      obtain ⟨a5, i', j', e5, w5, hji, hi1, hi2, hj1, hj2, hLow, hHigh⟩ :=
        partLoop_ok d a (l+1) ir (by omega) (a4.length + 1) a4 (l+1) ir (by omega) (by omega)
          (by omega) (by omega) (by omega) (by omega) (by omega)
          (by intro p p1 p2; have : p = l+1 := by omega
              rw [this]; exact hA0)
          (by intro p p1 p2; have : p = ir := by omega
              rw [this]; exact hB0)
      have len5 := w5.len
      have h5l : v1 d a5 l = a := w5.out l hl1 (by omega)
      rw [e5, Outcome.bind_ok]
      simp only
      rw [get1_ok d (by omega) (by omega), Outcome.bind_ok, set1_ok _ _ _ hl1 (by omega),
        Outcome.bind_ok, set1_ok _ _ _ (by omega) (by simp; omega), Outcome.bind_ok]
      have sw6 := setset_swapped d a5 l j' hl1 (by omega) (by omega) (by omega)
      rw [h5l] at sw6
      set a6 := (a5.set (l-1) (v1 d a5 j')).set (j'-1) a with ha6
      have w6 : Window d a5 a6 l ir := sw6.window hl1 (by omega) (by omega) (by omega) (by omega)
      have wall : Window d arr a6 l ir :=
        ((((w1.trans w2).trans w3).trans w4).trans (w5.mono (by omega) (by omega) hl1)).trans w6
      have inv6 := inv.window wall
      have len6 := wall.len
      have v6j : v1 d a6 j' = a := by rw [sw6.val j' (by omega), if_pos rfl, h5l]
      have low6 : ∀ p, l ≤ p → p < i' → v1 d a6 p ≤ a := by
        intro p p1 p2
        rw [sw6.val p (by omega)]
        split
        · rw [h5l]
        · split
          · exact hLow j' (by omega) hji
          · exact hLow p (by omega) p2
      have high6 : ∀ p, j' ≤ p → p ≤ ir → a ≤ v1 d a6 p := by
        intro p p1 p2
        rw [sw6.val p (by omega)]
        split
        · rw [h5l]
        · rw [if_neg (by omega)]
          exact hHigh p (by omega) p2
      have newInv : PInv d k (if j' ≤ k then i' else l) (if j' ≥ k then j' - 1 else ir) a6 := by
        have hirn6 := inv6.irn
        have lowAll : ∀ p, 1 ≤ p → p < i' → v1 d a6 p ≤ a := by
          intro p p1 p2
          by_cases hp : p < l
          · rw [← v6j]; exact inv6.left p j' p1 hp (by omega) (by omega)
          · exact low6 p (by omega) p2
        have highAll : ∀ q, j' ≤ q → q ≤ a6.length → a ≤ v1 d a6 q := by
          intro q q1 q2
          by_cases hq : q ≤ ir
          · exact high6 q q1 hq
          · rw [← v6j]; exact inv6.right j' q (by omega) (by omega) (by omega) q2
        refine ⟨by split <;> omega, by split <;> omega, hk1, inv6.kn, ?_, ?_, ?_⟩
        · intro p q p1 p2 q1 q2
          by_cases hc : j' ≤ k
          · rw [if_pos hc] at p2 q1
            exact le_trans (lowAll p p1 p2) (highAll q (by omega) q2)
          · rw [if_neg hc] at p2 q1
            exact inv6.left p q p1 p2 q1 q2
        · intro p q p1 p2 q1 q2
          by_cases hc : j' ≥ k
          · rw [if_pos hc] at p2 q1
            exact le_trans (lowAll p p1 (by omega)) (highAll q (by omega) q2)
          · rw [if_neg hc] at p2 q1
            exact inv6.right p q p1 p2 q1 q2
        · rcases inv6.loc with ⟨h1, h2⟩ | ⟨h1, hL, hR⟩
          · rcases Nat.lt_trichotomy j' k with hc | hc | hc
            · rw [if_pos (by omega), if_neg (by omega)]
              by_cases hik : i' ≤ k
              · exact Or.inl ⟨hik, h2⟩
              · refine Or.inr ⟨by omega, ?_, ?_⟩
                · intro p p1 p2
                  exact le_trans (lowAll p p1 (by omega)) (highAll k (by omega) (by omega))
                · intro q q1 q2
                  exact le_trans (lowAll k hk1 (by omega)) (highAll q (by omega) q2)
            · rw [if_pos (by omega), if_pos (by omega)]
              refine Or.inr ⟨by omega, ?_, ?_⟩
              · intro p p1 p2
                exact le_trans (lowAll p p1 (by omega)) (highAll k (by omega) (by omega))
              · intro q q1 q2
                exact le_trans (lowAll k hk1 (by omega)) (highAll q (by omega) q2)
            · rw [if_neg (by omega), if_pos (by omega)]
              exact Or.inl ⟨h1, by omega⟩
          · rw [if_neg (by omega), if_pos (by omega)]
            exact Or.inr ⟨h1, hL, hR⟩
      have hfuel : 0 < fuel := by omega
      obtain ⟨out, eo, po, r1, r2⟩ := ih a6 _ _ newInv (by split <;> split <;> omega) hfuel
      exact ⟨out, eo, po.trans wall.perm, r1, r2⟩

end HBT
