import Verif.Spec.Groups
import Verif.Model.GadgetGroup
import Verif.Lemmas.Basics
import Verif.Lemmas.Mpi
/-!
# Lemmas on the distribution of a group catalogue
-/
namespace HBT
open HBT.Model HBT.Spec

/-! ### Binary searches -/

theorem takeWhile_len {α : Type} (p : α → Bool) (l : List α) :
    (l.takeWhile p).length ≤ l.length ∧
    (∀ i (hi : i < (l.takeWhile p).length) (hl : i < l.length), p l[i] = true) ∧
    (∀ hk : (l.takeWhile p).length < l.length, p l[(l.takeWhile p).length] = false) := by
  induction l with
  | nil => simp
  | cons a l ih =>
    by_cases h : p a
    · simp only [List.takeWhile_cons, h, if_true, List.length_cons]
      refine ⟨by omega, ?_, ?_⟩
      · intro i hi hl
        cases i with
        | zero => simpa using h
        | succ i => simpa using ih.2.1 i (by omega) (by simpa using hl)
      · intro hk
        simpa using ih.2.2 (by omega)
    · simp [List.takeWhile_cons, h]

/-- Prefix sum. -/
def psum (l : List Nat) (i : Nat) : Nat := (l.take i).sum

theorem psum_mono (l : List Nat) {i j : Nat} (h : i ≤ j) : psum l i ≤ psum l j := sum_take_mono l h

theorem psum_zero (l : List Nat) : psum l 0 = 0 := by simp [psum]

theorem psum_length (l : List Nat) {i : Nat} (h : l.length ≤ i) : psum l i = l.sum := by
  rw [psum, List.take_of_length_le h]

theorem psum_le (l : List Nat) (i : Nat) : psum l i ≤ l.sum := by
  have := psum_mono l (i := i) (j := max i l.length) (by omega)
  rwa [psum_length l (i := max i l.length) (by omega)] at this

theorem offsets_get (l : List Nat) (i : Nat) (h : i < l.length) :
    ((compileOffsets l).1.map Int.ofNat)[i]? = some (psum l i : Int) := by
  rw [List.getElem?_map, compileOffsets, compileOffsetsFrom_get 0 l i h]
  simp [psum]

theorem offsets_len (l : List Nat) : ((compileOffsets l).1.map Int.ofNat).length = l.length := by
  rw [List.length_map, compileOffsets, compileOffsetsFrom_length]

/-- `lower_bound` on offsets. -/
theorem offsetLower_spec (l : List Nat) (x : Int) :
    offsetLower ((compileOffsets l).1.map Int.ofNat) x ≤ l.length ∧
    (∀ i, i < offsetLower ((compileOffsets l).1.map Int.ofNat) x → (psum l i : Int) < x) ∧
    (offsetLower ((compileOffsets l).1.map Int.ofNat) x < l.length →
      x ≤ psum l (offsetLower ((compileOffsets l).1.map Int.ofNat) x)) := by
  obtain ⟨h1, h2, h3⟩ := takeWhile_len (fun a => decide (a < x)) ((compileOffsets l).1.map Int.ofNat)
  rw [offsets_len] at h1
  refine ⟨h1, ?_, ?_⟩
  · intro i hi
    have hl : i < ((compileOffsets l).1.map Int.ofNat).length := by
      rw [offsets_len]; exact lt_of_lt_of_le hi h1
    have := h2 i hi hl
    have e := offsets_get l i (by rwa [offsets_len] at hl)
    rw [List.getElem?_eq_getElem hl] at e
    rw [Option.some.inj e] at this
    simpa using this
  · intro hk
    have hl : offsetLower ((compileOffsets l).1.map Int.ofNat) x < ((compileOffsets l).1.map Int.ofNat).length := by
      rw [offsets_len]; exact hk
    have := h3 hl
    have e := offsets_get l _ hk
    rw [List.getElem?_eq_getElem hl] at e
    have e' := Option.some.inj e
    unfold offsetLower at e' 
    rw [e'] at this
    simpa [offsetLower] using this

/-- `upper_bound` on offsets. -/
theorem offsetUpper_spec (l : List Nat) (x : Int) :
    offsetUpper ((compileOffsets l).1.map Int.ofNat) x ≤ l.length ∧
    (∀ i, i < offsetUpper ((compileOffsets l).1.map Int.ofNat) x → (psum l i : Int) ≤ x) ∧
    (offsetUpper ((compileOffsets l).1.map Int.ofNat) x < l.length →
      x < psum l (offsetUpper ((compileOffsets l).1.map Int.ofNat) x)) := by
  obtain ⟨h1, h2, h3⟩ := takeWhile_len (fun a => decide (a ≤ x)) ((compileOffsets l).1.map Int.ofNat)
  rw [offsets_len] at h1
  refine ⟨h1, ?_, ?_⟩
  · intro i hi
    have hl : i < ((compileOffsets l).1.map Int.ofNat).length := by
      rw [offsets_len]; exact lt_of_lt_of_le hi h1
    have := h2 i hi hl
    have e := offsets_get l i (by rwa [offsets_len] at hl)
    rw [List.getElem?_eq_getElem hl] at e
    rw [Option.some.inj e] at this
    simpa using this
  · intro hk
    have hl : offsetUpper ((compileOffsets l).1.map Int.ofNat) x < ((compileOffsets l).1.map Int.ofNat).length := by
      rw [offsets_len]; exact hk
    have := h3 hl
    have e := offsets_get l _ hk
    rw [List.getElem?_eq_getElem hl] at e
    have e' := Option.some.inj e
    unfold offsetUpper at e'
    rw [e'] at this
    simpa [offsetUpper] using this

/-! ### Pieces of sequences -/

theorem cut_length {α : Type} (ns : List Nat) (l : List α) : (cut ns l).length = ns.length := by
  induction ns generalizing l with
  | nil => rfl
  | cons n ns ih => simp [cut, ih]

theorem cut_drop {α : Type} (ns : List Nat) (l : List α) (h : Nat) :
    cut (ns.drop h) (l.drop (psum ns h)) = (cut ns l).drop h := by
  induction h generalizing ns l with
  | zero => simp [psum]
  | succ h ih =>
    cases ns with
    | nil => simp [cut]
    | cons n ns =>
      have := ih ns (l.drop n)
      simp only [List.drop_succ_cons, cut]
      rw [← this, List.drop_drop]
      simp [psum]

theorem cut_take {α : Type} (ns : List Nat) (l : List α) (k : Nat) :
    cut (ns.take k) (l.take (psum ns k)) = (cut ns l).take k := by
  induction k generalizing ns l with
  | zero => simp [psum, cut]
  | succ k ih =>
    cases ns with
    | nil => simp [cut]
    | cons n ns =>
      have := ih ns (l.drop n)
      simp only [List.take_succ_cons, cut]
      rw [← this]
      simp only [psum, List.take_succ_cons, List.sum_cons, List.take_take, List.drop_take]
      congr 2
      · simp
      · congr 1; omega

theorem populate_ok (hid : Int) (ns : List Nat) (p : List Int) (h : ns.sum ≤ p.length) :
    populate hid ns p = .ok ((cut ns p).zipIdx.map (fun x => (hid + x.2, x.1))) := by
  induction ns generalizing hid p with
  | nil => rfl
  | cons n ns ih =>
    simp only [List.sum_cons] at h
    rw [populate, if_pos (by omega), ih (hid + 1) (p.drop n) (by simp; omega), Outcome.bind_ok]
    simp only [cut, List.zipIdx_cons, List.map_cons]
    simp only [Nat.cast_zero, add_zero, Outcome.ok.injEq, List.cons.injEq, true_and]
    rw [Nat.zero_add, List.zipIdx_succ, List.map_map]
    apply List.map_congr_left
    intro x _
    simp; omega

/-- A slice inside one of the concatenated pieces. -/
theorem slice_flatten {α : Type} (L : List (List α)) (k : Nat) (hk : k < L.length) (a b : Nat)
    (h1 : psum (L.map List.length) k ≤ a) (h2 : a ≤ b) (h3 : b ≤ psum (L.map List.length) (k + 1)) :
    (L.flatten.drop a).take (b - a)
      = (L[k].drop (a - psum (L.map List.length) k)).take (b - a) := by
  have e : L.flatten = (L.take k).flatten ++ (L[k] ++ (L.drop (k + 1)).flatten) := by
    rw [← List.flatten_cons, ← List.drop_eq_getElem_cons hk, ← List.flatten_append, List.take_append_drop]
  have hlen : (L.take k).flatten.length = psum (L.map List.length) k := by
    rw [List.length_flatten, psum, ← List.map_take]
  have h3' : b ≤ psum (L.map List.length) k + L[k].length := by
    rw [psum, sum_take_succ' _ _ (by simpa using hk)] at h3
    rw [psum]; simpa using h3
  rw [e, List.drop_append, List.drop_eq_nil_of_le (by omega), List.nil_append, hlen,
    List.drop_append_of_le_length (by omega), List.take_append_of_le_length (by simp; omega)]

theorem slice_append {α : Type} (l : List α) (a b c : Nat) (h1 : a ≤ b) (h2 : b ≤ c) :
    (l.drop a).take (b - a) ++ (l.drop b).take (c - b) = (l.drop a).take (c - a) := by
  have e : c - a = (b - a) + (c - b) := by omega
  rw [e, List.take_add, List.drop_drop]
  congr 4; omega

/-! ### Reading the files of a task -/

section Read
variable {w : Nat} (mask : BitVec w) (files : List (GroupFile w))

/-- Sizes of the files. -/
def fileSizes (files : List (GroupFile w)) : List Nat := files.map (fun f => f.ids.length)

/-- All ids of the catalogue, masked. -/
def allIds (mask : BitVec w) (files : List (GroupFile w)) : List Int :=
  (files.map (fun f => f.ids.map (maskedId mask))).flatten

theorem allIds_length : (allIds mask files).length = (fileSizes files).sum := by
  simp [allIds, fileSizes, List.length_flatten, Function.comp_def]

/-- The task reading ids `a` to `b`. -/
def taskOf (F : List Nat) (fb fe a b h h' : Nat) : FileAssignment :=
  FileAssignment.mk fb fe ((a : Int) - psum F fb) ((b : Int) - psum F (fe - 1)) ((b : Int) - a) h ((h' : Int) - h)

theorem readIds_ok (k : Nat) (hk : k < files.length) (x y : Nat) (fin : Int)
    (h1 : psum (fileSizes files) k ≤ x) (h2 : x ≤ y) (h3 : y ≤ psum (fileSizes files) (k + 1))
    (hfin : (fin < 0 ∧ y = psum (fileSizes files) (k + 1)) ∨
      (0 ≤ fin ∧ fin = (y : Int) - psum (fileSizes files) k)) :
    readIds mask files[k] ((x : Int) - psum (fileSizes files) k) fin
      = .ok (((allIds mask files).drop x).take (y - x)) := by
  have hlen : psum (fileSizes files) (k + 1) = psum (fileSizes files) k + (files[k]).ids.length := by
    rw [psum, sum_take_succ' _ _ (by simpa [fileSizes] using hk)]
    simp [fileSizes, psum]
  have hsl := slice_flatten (files.map (fun f => f.ids.map (maskedId mask))) k (by simpa using hk) x y
  have e : (files.map (fun f => f.ids.map (maskedId mask))).map List.length = fileSizes files := by
    simp [fileSizes, Function.comp_def]
  rw [e] at hsl
  have hsl := hsl h1 h2 h3
  unfold readIds
  rw [if_neg (by rcases hfin with h | h <;> omega)]
  simp only
  have hf : (if fin < 0 then ((files[k]).ids.length : Int) else fin) = (y : Int) - psum (fileSizes files) k := by
    rcases hfin with h | h
    · rw [if_pos h.1]; omega
    · rw [if_neg (by omega)]; exact h.2
  rw [hf, if_neg (by omega), if_neg (by omega)]
  unfold allIds
  rw [hsl, List.getElem_map, ← List.map_drop, ← List.map_take]
  congr 4
  · congr 1; omega
  · omega

theorem readTask_ok (a b h h' fb fe : Nat) (hab : a ≤ b) (hfb : fb < files.length)
    (hfe : fe ≤ files.length) (hfe0 : 0 < fe)
    (h1 : psum (fileSizes files) fb ≤ a) (h2 : a ≤ psum (fileSizes files) (fb + 1))
    (h3 : psum (fileSizes files) (fe - 1) < b) (h4 : b ≤ psum (fileSizes files) fe) :
    readTask mask files (taskOf (fileSizes files) fb fe a b h h')
      ((taskOf (fileSizes files) fb fe a b h h').ifileEnd - (taskOf (fileSizes files) fb fe a b h h').ifileBegin).toNat
      (taskOf (fileSizes files) fb fe a b h h').ifileBegin []
      = .ok (((allIds mask files).drop a).take (b - a)) := by
  let F := psum (fileSizes files)
  have hm : ∀ i j, i ≤ j → F i ≤ F j := fun i j hij => psum_mono _ hij
  let pos : Nat → Nat := fun k => if k = fb then a else F k
  have hpos : ∀ k, F k ≤ pos k := by
    intro k; simp only [pos]; split
    · subst_vars; exact h1
    · exact le_refl _
  have hpos' : ∀ k, fb ≤ k → pos k ≤ F (k + 1) := by
    intro k _; simp only [pos]; split
    · subst_vars; exact h2
    · exact hm _ _ (by omega)
  have hend : ∀ k, fb ≤ k → fe ≤ k → b ≤ pos k := fun k _ hk => (h4.trans (hm _ _ hk)).trans (hpos k)
  have key : ∀ m k buf, fe - k = m → fb ≤ k →
      readTask mask files (taskOf (fileSizes files) fb fe a b h h') m (k : Int) buf
        = .ok (buf ++ ((allIds mask files).drop (pos k)).take (b - pos k)) := by
    intro m
    induction m with
    | zero =>
      intro k buf hk hfk
      have := hend k hfk (by omega)
      rw [readTask, show b - pos k = 0 by omega]; simp
    | succ m ih =>
      intro k buf hk hfk
      have hkl : k < files.length := by omega
      have hstart : (if (k : Int) = (taskOf (fileSizes files) fb fe a b h h').ifileBegin
          then (taskOf (fileSizes files) fb fe a b h h').firstBegin else 0) = (pos k : Int) - psum (fileSizes files) k := by
        by_cases hkf : k = fb
        · subst hkf
          rw [if_pos (by rfl)]
          simp [taskOf, pos]
        · rw [if_neg (show ¬ (k : Int) = (taskOf (fileSizes files) fb fe a b h h').ifileBegin by
            simp only [taskOf]; omega)]
          simp [pos, hkf, F]
      rw [readTask]
      rw [hstart, if_neg (by omega)]
      simp only [Int.toNat_natCast, List.getElem?_eq_getElem hkl]
      by_cases hlast : k = fe - 1
      · have hkb : pos k ≤ b := by
          simp only [pos]; split
          · exact hab
          · subst hlast; exact h3.le
        have hF : psum (fileSizes files) k ≤ b := (hpos k).trans hkb
        rw [if_pos (show (k : Int) = (taskOf (fileSizes files) fb fe a b h h').ifileEnd - 1 by
          simp only [taskOf]; omega)]
        rw [readIds_ok mask files k hkl (pos k) b (taskOf (fileSizes files) fb fe a b h h').lastEnd (hpos k) hkb (by rw [hlast, Nat.sub_add_cancel hfe0]; exact h4)
          (Or.inr (by
            have e : (taskOf (fileSizes files) fb fe a b h h').lastEnd = (b : Int) - psum (fileSizes files) k := by
              rw [hlast]; rfl
            rw [e]; omega)), Outcome.bind_ok]
        have : m = 0 := by omega
        subst this
        rw [readTask]
      · rw [if_neg (show ¬ (k : Int) = (taskOf (fileSizes files) fb fe a b h h').ifileEnd - 1 by
          simp only [taskOf]; omega)]
        rw [readIds_ok mask files k hkl (pos k) (F (k + 1)) _ (hpos k) (hpos' k hfk) (le_refl _)
          (Or.inl ⟨by omega, rfl⟩), Outcome.bind_ok]
        have := ih (k + 1) (buf ++ ((allIds mask files).drop (pos k)).take (F (k + 1) - pos k)) (by omega) (by omega)
        push_cast at this
        rw [this]
        have hp : pos (k + 1) = F (k + 1) := by simp only [pos]; rw [if_neg (by omega)]
        rw [hp, List.append_assoc, slice_append _ _ _ _ (hpos' k hfk)]
        exact (hm _ _ (by omega : k + 1 ≤ fe - 1)).trans h3.le
  have := key (fe - fb) fb [] rfl (le_refl _)
  simp only [taskOf] at this ⊢
  rw [show ((fe : Int) - fb).toNat = fe - fb by omega, this]
  simp [pos]

end Read

/-! ### Distributing the tasks -/

/-- Group `h` starts after all groups before it. -/
def Fresh (lens : List Nat) (h : Nat) : Prop := h ≤ lens.length ∧ ∀ j, j < h → psum lens j < psum lens h

theorem assignHaloTasks_ok (lens sizes : List Nat) (hsum : lens.sum = sizes.sum) (n h : Nat)
    (hf : Fresh lens h) (hpos : 0 < sizes.sum) (h0 : h = 0 → n + 1 ≤ sizes.sum) :
    ∃ fb fe h', assignHaloTasks (n + 1) sizes.sum (((compileOffsets lens).1 ++ [sizes.sum]).map Int.ofNat)
        ((compileOffsets sizes).1.map Int.ofNat) (psum lens h) emptyAssignment
        = .ok ((psum lens h' : Int), taskOf sizes fb fe (psum lens h) (psum lens h') h h') ∧
      Fresh lens h' ∧ h ≤ h' ∧ 0 < h' ∧
      psum lens h + (sizes.sum - psum lens h) / (n + 1) ≤ psum lens h' ∧
      (∀ j, j < h' → psum lens j < psum lens h + (sizes.sum - psum lens h) / (n + 1)) ∧
      fb < sizes.length ∧ fe ≤ sizes.length ∧ 0 < fe ∧ psum sizes fb ≤ psum lens h ∧
      psum lens h ≤ psum sizes (fb + 1) ∧ psum sizes (fe - 1) < psum lens h' ∧
      psum lens h' ≤ psum sizes fe := by
  have hle : psum lens h ≤ sizes.sum := hsum ▸ psum_le lens h
  obtain ⟨share, hs⟩ : ∃ share, share = (sizes.sum - psum lens h) / (n + 1) := ⟨_, rfl⟩
  rw [← hs]
  have hshare : psum lens h + share ≤ sizes.sum := by
    have : share ≤ sizes.sum - psum lens h := hs ▸ Nat.div_le_self _ _
    omega
  have htd : ((sizes.sum : Int) - (psum lens h : Int)).tdiv ((n + 1 : Nat) : Int) = (share : Int) := by
    have : ((sizes.sum : Int) - (psum lens h : Int)) = ((sizes.sum - psum lens h : Nat) : Int) := by omega
    rw [this, ← Int.ofNat_tdiv, hs]
  have hx0 : 0 < psum lens h + share := by
    rcases Nat.eq_zero_or_pos h with hz | hz
    · have := h0 hz
      have : 0 < share := by
        subst hz; rw [hs, psum_zero, Nat.sub_zero]
        exact Nat.div_pos this (by omega)
      omega
    · have := hf.2 0 hz; omega
  obtain ⟨a1, a2, a3⟩ := offsetLower_spec lens (psum lens h)
  obtain ⟨b1, b2, b3⟩ := offsetLower_spec lens ((psum lens h : Int) + share)
  generalize hk1 : offsetLower ((compileOffsets lens).1.map Int.ofNat) (psum lens h) = k1 at a1 a2 a3
  generalize hk2 : offsetLower ((compileOffsets lens).1.map Int.ofNat) ((psum lens h : Int) + share) = k2 at b1 b2 b3
  -- the first search returns `h`
  have ek1 : k1 = h := by
    rcases Nat.lt_trichotomy k1 h with hlt | heq | hgt
    · have := a3 (by have := hf.1; omega)
      have := hf.2 k1 hlt
      omega
    · exact heq
    · have := a2 h hgt; omega
  have b2' : ∀ j, j < k2 → psum lens j < psum lens h + share := fun j hj => by have := b2 j hj; omega
  have b3' : psum lens h + share ≤ psum lens k2 := by
    rcases Nat.lt_or_ge k2 lens.length with hlt | hge
    · have := b3 hlt; omega
    · rw [psum_length lens hge, hsum]; exact hshare
  have hk2pos : 0 < k2 := by
    rcases Nat.eq_zero_or_pos k2 with hz | hz
    · subst hz; rw [psum_zero] at b3'; omega
    · exact hz
  have hhk : h ≤ k2 := by
    by_contra hc
    have := hf.2 k2 (by omega)
    omega
  have hfresh : Fresh lens k2 := ⟨b1, fun j hj => lt_of_lt_of_le (b2' j hj) b3'⟩
  have hk2le : psum lens k2 ≤ sizes.sum := hsum ▸ psum_le lens k2
  -- the file range
  obtain ⟨c1, c2, c3⟩ := offsetUpper_spec sizes (psum lens h)
  obtain ⟨d1, d2, d3⟩ := offsetLower_spec sizes (psum lens k2)
  generalize hu : offsetUpper ((compileOffsets sizes).1.map Int.ofNat) (psum lens h) = u at c1 c2 c3
  generalize hl : offsetLower ((compileOffsets sizes).1.map Int.ofNat) (psum lens k2) = l at d1 d2 d3
  have hsl : 0 < sizes.length := by
    rcases sizes with _ | ⟨x, xs⟩
    · simp at hpos
    · simp
  have hu0 : 0 < u := by
    rcases Nat.eq_zero_or_pos u with hz | hz
    · subst hz; have := c3 hsl; rw [psum_zero] at this; omega
    · exact hz
  have hl0 : 0 < l := by
    rcases Nat.eq_zero_or_pos l with hz | hz
    · subst hz
      have := d3 hsl; rw [psum_zero] at this
      have := hfresh.2 0 hk2pos; omega
    · exact hz
  have hget : ∀ i : Nat, i < sizes.length →
      Outcome.getI ((compileOffsets sizes).1.map Int.ofNat) (i : Int) = .ok (psum sizes i : Int) := by
    intro i hi
    unfold Outcome.getI Outcome.get
    rw [if_neg (by omega), Int.toNat_natCast, offsets_get sizes i hi]
  refine ⟨u - 1, l, k2, ?_, hfresh, hhk, hk2pos, b3', b2', by omega, d1, hl0, ?_, ?_, ?_, ?_⟩
  · unfold assignHaloTasks
    rw [if_neg (by omega), if_neg (by omega)]
    simp only
    rw [List.map_append, List.map_singleton, List.dropLast_concat, htd, hk1, hk2]
    have hat : atChecked ((compileOffsets lens).1.map Int.ofNat ++ [Int.ofNat sizes.sum]) k2
        = .ok (psum lens k2 : Int) := by
      unfold atChecked
      rcases Nat.lt_or_ge k2 lens.length with hlt | hge
      · rw [List.getElem?_append_left (by rw [offsets_len]; exact hlt), offsets_get lens k2 hlt]
      · have : k2 = lens.length := by omega
        rw [List.getElem?_append_right (by rw [offsets_len]; omega), offsets_len, this, Nat.sub_self]
        simp [psum_length lens (le_refl _), hsum]
    rw [hat, Outcome.bind_ok, hu, hl, show ((u : Int) - 1) = ((u - 1 : Nat) : Int) by omega,
      hget (u - 1) (by omega), Outcome.bind_ok, show ((l : Int) - 1) = ((l - 1 : Nat) : Int) by omega,
      hget (l - 1) (by omega), Outcome.bind_ok, ek1]
    rfl
  · have := c2 (u - 1) (by omega); omega
  · rw [Nat.sub_add_cancel hu0]
    rcases Nat.lt_or_ge u sizes.length with hlt | hge
    · have := c3 hlt; omega
    · rw [psum_length sizes hge]; exact hle
  · have := d2 (l - 1) (by omega); omega
  · rcases Nat.lt_or_ge l sizes.length with hlt | hge
    · have := d3 hlt; omega
    · rw [psum_length sizes hge]; exact hk2le

/-- A task as it should be: groups `h` to `h'`. -/
def GoodTask (lens sizes : List Nat) (h h' : Nat) (t : FileAssignment) : Prop :=
  ∃ fb fe, t = taskOf sizes fb fe (psum lens h) (psum lens h') h h' ∧
    fb < sizes.length ∧ fe ≤ sizes.length ∧ 0 < fe ∧ psum sizes fb ≤ psum lens h ∧
    psum lens h ≤ psum sizes (fb + 1) ∧ psum sizes (fe - 1) < psum lens h' ∧
    psum lens h' ≤ psum sizes fe

theorem assignLoop_ok (lens sizes : List Nat) (hsum : lens.sum = sizes.sum) (hpos : 0 < sizes.sum) :
    ∀ n h, Fresh lens h → (h = 0 → n ≤ sizes.sum) →
    ∃ ts : List FileAssignment, ∃ bs : Nat → Nat,
      assignLoop sizes.sum (((compileOffsets lens).1 ++ [sizes.sum]).map Int.ofNat)
        ((compileOffsets sizes).1.map Int.ofNat) n (psum lens h) = .ok ts ∧
      ts.length = n ∧ bs 0 = h ∧ (0 < n → psum lens (bs n) = sizes.sum) ∧
      (∀ i, i < n → bs i ≤ bs (i + 1) ∧ bs (i + 1) ≤ lens.length) ∧
      (∀ i (hi : i < ts.length), GoodTask lens sizes (bs i) (bs (i + 1)) ts[i]) ∧
      (∀ i, i < n → ∀ j, j < bs (i + 1) →
        psum lens j < psum lens (bs i) + (sizes.sum - psum lens (bs i)) / (n - i)) ∧
      (∀ i, i < n → psum lens (bs i) + (sizes.sum - psum lens (bs i)) / (n - i) ≤ psum lens (bs (i + 1))) := by
  intro n
  induction n with
  | zero =>
    intro h _ _
    exact ⟨[], fun _ => h, rfl, rfl, rfl, by omega, by omega, by simp, by omega, by omega⟩
  | succ n ih =>
    intro h hf h0
    obtain ⟨fb, fe, h', e1, e2, e3, e4, e5, e6, e7⟩ := assignHaloTasks_ok lens sizes hsum n h hf hpos h0
    obtain ⟨ts, bs, f1, f2, f3, f4, f5, f6, f7, f8⟩ := ih h' e2 (by omega)
    refine ⟨taskOf sizes fb fe (psum lens h) (psum lens h') h h' :: ts,
      fun i => if i = 0 then h else bs (i - 1), ?_, by simp [f2], by simp, ?_, ?_, ?_, ?_, ?_⟩
    · rw [assignLoop, e1, Outcome.bind_ok]
      simp only
      rw [f1, Outcome.bind_ok]
    · intro _
      simp only [if_neg (Nat.succ_ne_zero _), Nat.add_sub_cancel]
      rcases Nat.eq_zero_or_pos n with hz | hz
      · subst hz
        rw [f3]
        have := psum_le lens h'
        simp only [Nat.zero_add, Nat.div_one] at e5
        have := psum_le lens h
        omega
      · exact f4 hz
    · intro i hi
      cases i with
      | zero => simp [f3, e3, e2.1]
      | succ i =>
        have := f5 i (by omega)
        simpa using this
    · intro i hi
      cases i with
      | zero => simp only [List.getElem_cons_zero]; simp [f3]; exact ⟨fb, fe, rfl, e7⟩
      | succ i =>
        have := f6 i (by simpa using hi)
        simpa using this
    · intro i hi j hj
      cases i with
      | zero => simp [f3] at hj ⊢; exact e6 j hj
      | succ i =>
        simp only [Nat.add_sub_cancel, if_neg (Nat.succ_ne_zero _)] at hj ⊢
        have := f7 i (by omega) j hj
        rw [show n + 1 - (i + 1) = n - i by omega]; exact this
    · intro i hi
      cases i with
      | zero => simp [f3]; exact e5
      | succ i =>
        simp only [Nat.add_sub_cancel, if_neg (Nat.succ_ne_zero _)]
        have := f8 i (by omega)
        rw [show n + 1 - (i + 1) = n - i by omega]; exact this

end HBT
