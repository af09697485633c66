import Verif.Model.Config
import Verif.Spec.Config
import Mathlib.Algebra.Order.Ring.Int
import Mathlib.Data.List.TakeWhile
import Mathlib.Tactic.Ring
/-!
# Lemmas about words and numbers in text
-/
namespace HBT
open HBT.Model HBT.Spec
variable {R : Type}

instance : LawfulMonad Outcome := LawfulMonad.mk'
  (id_map := fun x => by cases x <;> rfl)
  (pure_bind := fun _ _ => rfl)
  (bind_assoc := fun x _ _ => by cases x <;> rfl)

theorem isSpace_eq : isSpace = isBlank := rfl

/-- What follows a word. -/
def Ends (cs : List Char) : Prop := ∀ c ∈ cs.head?, isBlank c = true

theorem words_nil : words [] = [] := rfl

theorem words_blank {c : Char} (h : isBlank c = true) (cs : List Char) : words (c :: cs) = words cs := by
  unfold words
  rw [List.splitOnP_cons_eq_if_splitOnPPrepend, if_pos h]
  rfl

theorem words_dropBlank (p : Char → Bool) (hp : ∀ c, p c = true → isBlank c = true) (cs : List Char) :
    words (cs.dropWhile p) = words cs := by
  induction cs with
  | nil => rfl
  | cons c cs ih =>
    rw [List.dropWhile_cons]
    split_ifs with h
    · rw [words_blank (hp c h), ih]
    · rfl

theorem splitOnP_word {p : Char → Bool} {a : List Char} (ha : ∀ c ∈ a, p c = false) (b : List Char) (hb : ∀ c ∈ b.head?, p c = true) :
    (a ++ b).splitOnP p = a :: (b.splitOnP p).tail := by
  induction a with
  | nil =>
    cases b with
    | nil => rfl
    | cons c cs =>
      rw [List.nil_append, List.splitOnP_cons_eq_if_splitOnPPrepend, if_pos (hb c (by simp))]
      rfl
  | cons x a ih =>
    have hx := ha x (by simp)
    rw [List.cons_append, List.splitOnP_cons_eq_if_splitOnPPrepend, if_neg (by simp [hx]), List.splitOnPPrepend_eq_modifyHead,
      ih (fun c hc => ha c (by simp [hc]))]
    rfl

theorem words_word {a : List Char} (ha : ∀ c ∈ a, isBlank c = false) (ha0 : a ≠ []) (b : List Char) (hb : Ends b) :
    words (a ++ b) = a :: words b := by
  unfold words
  rw [splitOnP_word ha b hb, List.filter_cons, if_pos (by simpa using ha0)]
  congr 1
  cases b with
  | nil => rfl
  | cons c cs =>
    rw [List.splitOnP_cons_eq_if_splitOnPPrepend, if_pos (hb c (by simp))]
    rfl

/-- Reading a word. -/
theorem extractWord_spec (cs : List Char) :
    (words cs = [] ∧ cs.dropWhile isBlank = [] ∧ extractWord cs = ([], [])) ∨
    (∃ w rest, words cs = w :: words rest ∧ cs.dropWhile isBlank = w ++ rest ∧ extractWord cs = (w, rest) ∧ w ≠ [] ∧
      (∀ c ∈ w, isBlank c = false) ∧ Ends rest) := by
  have hw := words_dropBlank isBlank (fun _ h => h) cs
  cases hd : cs.dropWhile isBlank with
  | nil =>
    left
    refine ⟨by rw [← hw, hd]; rfl, rfl, ?_⟩
    rw [extractWord, isSpace_eq]
    simp only [hd]
    rfl
  | cons c ds =>
    right
    have hc : isBlank c = false := by
      have := List.head?_dropWhile_not isBlank cs
      rw [hd] at this
      simpa using this
    refine ⟨(c :: ds).takeWhile (fun c => !isBlank c), (c :: ds).dropWhile (fun c => !isBlank c), ?_, ?_, ?_, ?_, ?_, ?_⟩
    · rw [← hw, hd]
      conv_lhs => rw [← List.takeWhile_append_dropWhile (p := fun c => !isBlank c) (l := c :: ds)]
      refine words_word ?_ ?_ _ ?_
      · intro x hx
        simpa using List.mem_takeWhile_imp hx
      · rw [List.takeWhile_cons, if_pos (by simp [hc])]
        simp
      · intro x hx
        have := List.head?_dropWhile_not (fun c => !isBlank c) (c :: ds)
        rw [Option.mem_def] at hx
        rw [hx] at this
        simpa using this
    · exact (List.takeWhile_append_dropWhile ..).symm
    · rw [extractWord, isSpace_eq]
      simp only [hd]
    · rw [List.takeWhile_cons, if_pos (by simp [hc])]
      simp
    · intro x hx
      simpa using List.mem_takeWhile_imp hx
    · intro x hx
      have := List.head?_dropWhile_not (fun c => !isBlank c) (c :: ds)
      rw [Option.mem_def] at hx
      rw [hx] at this
      simpa using this

theorem extractWord_words {cs w : List Char} {ws : List (List Char)} (h : words cs = w :: ws) :
    ∃ rest, cs.dropWhile isBlank = w ++ rest ∧ extractWord cs = (w, rest) ∧ w ≠ [] ∧ (∀ c ∈ w, isBlank c = false) ∧
      Ends rest ∧ words rest = ws := by
  rcases extractWord_spec cs with ⟨h1, _⟩ | ⟨w', rest, h1, h2, h3, h4, h5, h6⟩
  · rw [h1] at h; cases h
  · rw [h1] at h
    simp only [List.cons.injEq] at h
    obtain ⟨rfl, rfl⟩ := h
    exact ⟨rest, h2, h3, h4, h5, h6, rfl⟩

theorem words_length (cs : List Char) : (words cs).length ≤ cs.length := by
  induction hn : cs.length using Nat.strong_induction_on generalizing cs with
  | _ n ih =>
    rcases extractWord_spec cs with ⟨h1, _⟩ | ⟨w, rest, h1, h2, h3, h4, h5, h6⟩
    · rw [h1]; simp
    · have h7 := (List.dropWhile_sublist (l := cs) isBlank).length_le
      rw [h2, List.length_append] at h7
      have h8 := List.length_pos_iff.2 h4
      have := ih rest.length (by omega) rest rfl
      rw [h1, List.length_cons]
      omega

theorem trimTrailing_visible (line : List Char) : trimTrailing ['#', '['] line = visible line := by
  unfold trimTrailing visible
  congr 1
  funext c
  cases h1 : (c == '#') <;> cases h2 : (c == '[') <;> simp [List.contains, List.elem, h1, h2]

/-! ## Numbers -/

theorem hexVal_digitChar {d : Nat} (h : d < 16) : hexVal d.digitChar = d := by
  revert h; revert d
  decide

theorem digitsVal_snoc (b : Nat) (l : List Char) (c : Char) : digitsVal b (l ++ [c]) = b * digitsVal b l + hexVal c := by
  simp [digitsVal]

theorem digitsVal_toDigits {b : Nat} (hb : 1 < b) (hb' : b ≤ 16) (n : Nat) : digitsVal b (Nat.toDigits b n) = n := by
  induction n using Nat.strong_induction_on with
  | _ n ih =>
    rw [Nat.toDigits_eq_if hb]
    split_ifs with h
    · have : digitsVal b [n.digitChar] = b * 0 + hexVal n.digitChar := rfl
      rw [this, hexVal_digitChar (by omega)]
      omega
    · rw [digitsVal_snoc, ih _ (Nat.div_lt_self (by omega) hb), hexVal_digitChar (by have := Nat.mod_lt n (show 0 < b by omega); omega)]
      exact Nat.div_add_mod n b

theorem toDigits_hex {b : Nat} (hb : 1 < b) (hb' : b ≤ 16) (n : Nat) : ∀ c ∈ Nat.toDigits b n, hexVal c < b := by
  induction n using Nat.strong_induction_on with
  | _ n ih =>
    rw [Nat.toDigits_eq_if hb]
    split_ifs with h
    · intro c hc
      rw [List.mem_singleton] at hc
      rw [hc, hexVal_digitChar (by omega)]
      exact h
    · intro c hc
      rcases List.mem_append.1 hc with hc | hc
      · exact ih _ (Nat.div_lt_self (by omega) hb) c hc
      · have := Nat.mod_lt n (show 0 < b by omega)
        rw [List.mem_singleton] at hc
        rw [hc, hexVal_digitChar (by omega)]
        exact this

theorem hexVal_blank {c : Char} (h : isBlank c = true) : hexVal c = 16 := by
  simp only [isBlank, Bool.or_eq_true, beq_iff_eq] at h
  rcases h with ((((rfl | rfl) | rfl) | rfl) | rfl) | rfl <;> decide

theorem takeWhile_num {b : Nat} (hb' : b ≤ 16) {num rest : List Char} (hn : ∀ c ∈ num, hexVal c < b) (hr : Ends rest) :
    (num ++ rest).takeWhile (fun c => decide (hexVal c < b)) = num ∧
    (num ++ rest).dropWhile (fun c => decide (hexVal c < b)) = rest := by
  induction num with
  | nil =>
    cases rest with
    | nil => exact ⟨rfl, rfl⟩
    | cons c cs =>
      have := hexVal_blank (hr c (by simp))
      rw [List.nil_append, List.takeWhile_cons, List.dropWhile_cons, if_neg (by simp; omega), if_neg (by simp; omega)]
      exact ⟨rfl, rfl⟩
  | cons x num ih =>
    have hx := hn x (by simp)
    have := ih (fun c hc => hn c (by simp [hc]))
    rw [List.cons_append, List.takeWhile_cons, List.dropWhile_cons, if_pos (by simpa using hx), if_pos (by simpa using hx),
      this.1, this.2]
    exact ⟨rfl, rfl⟩

theorem dropPrefix_num {b : Nat} {num rest : List Char} (hb' : b ≤ 16) (hn : ∀ c ∈ num, hexVal c < b) (hn0 : num ≠ []) (hr : Ends rest) :
    dropPrefix b (num ++ rest) = num ++ rest := by
  cases hl : num ++ rest with
  | nil => rfl
  | cons x l =>
    cases l with
    | nil =>
      unfold dropPrefix
      split
      · rename_i h; cases h
      · rfl
    | cons c cs =>
      have hc : hexVal c < 16 ∨ isBlank c = true := by
        cases num with
        | nil => exact absurd rfl hn0
        | cons y num =>
          simp only [List.cons_append, List.cons.injEq] at hl
          cases num with
          | nil =>
            right
            refine hr c ?_
            rw [List.nil_append] at hl
            rw [hl.2]
            rfl
          | cons z num =>
            left
            simp only [List.cons_append, List.cons.injEq] at hl
            have := hn z (by simp)
            rw [← hl.2.1]
            omega
      have hcx : ¬ (c = 'x' ∨ c = 'X') := by
        rintro (rfl | rfl)
        · rcases hc with h | h
          · exact absurd h (by decide)
          · exact absurd h (by decide)
        · rcases hc with h | h
          · exact absurd h (by decide)
          · exact absurd h (by decide)
      unfold dropPrefix
      split
      · rename_i h
        simp only [List.cons.injEq] at h
        obtain ⟨rfl, rfl, rfl⟩ := h
        rw [if_neg (fun h => hcx h.2)]
      · rfl

/-- Sign and digits of a number in base `b`. -/
def signed (b : Nat) (v : Int) : List Char := if v < 0 then '-' :: Nat.toDigits b v.natAbs else Nat.toDigits b v.natAbs

theorem decimal_eq (v : Int) : decimal v = signed 10 v := by
  cases v with
  | ofNat n => simp [decimal, signed]
  | negSucc n => simp [decimal, signed, Int.negSucc_lt_zero]

theorem printInt_eq (v : Int) : printInt v = decimal v := (decimal_eq v).symm

theorem splitSign_digit {cs : List Char} (h : ∀ c ∈ cs.head?, hexVal c < 16) : splitSign cs = (false, cs) := by
  unfold splitSign
  split
  · exact absurd (h '-' (by simp)) (by decide)
  · exact absurd (h '+' (by simp)) (by decide)
  · rfl

theorem extractInt_signed {b : Nat} (hb : 1 < b) (hb' : b ≤ 16) {bits : Nat} {v : Int} (hv : InRange bits v) {cs rest : List Char}
    (h : cs.dropWhile isBlank = signed b v ++ rest) (hr : Ends rest) : extractInt b bits cs = .good v rest := by
  have hne : Nat.toDigits b v.natAbs ≠ [] := Nat.toDigits_ne_nil
  have hhex := toDigits_hex hb hb' v.natAbs
  have hs : splitSign (signed b v ++ rest) = (decide (v < 0), Nat.toDigits b v.natAbs ++ rest) := by
    unfold signed
    split_ifs with h0
    · simp [splitSign, h0]
    · rw [splitSign_digit]
      · simp [h0]
      · intro c hc
        cases hd : Nat.toDigits b v.natAbs with
        | nil => exact absurd hd hne
        | cons x l =>
          rw [hd, List.cons_append, List.head?_cons, Option.mem_def, Option.some.injEq] at hc
          have := hhex x (by rw [hd]; simp)
          rw [← hc]
          omega
  have hnn : signed b v ++ rest ≠ [] := by
    intro he
    have := List.append_eq_nil_iff.1 he
    unfold signed at this
    split_ifs at this with h0
    · exact absurd this.1 (by simp)
    · exact hne this.1
  have htd := takeWhile_num (b := b) hb' hhex hr
  have key : (if (Nat.toDigits b v.natAbs).isEmpty then Extracted.fail 0 else
      let w : Int := if decide (v < 0) then -(digitsVal b (Nat.toDigits b v.natAbs) : Int) else (digitsVal b (Nat.toDigits b v.natAbs) : Int)
      if w < -(2 : Int) ^ (bits - 1) then .fail (-(2 : Int) ^ (bits - 1))
      else if (2 : Int) ^ (bits - 1) ≤ w then .fail ((2 : Int) ^ (bits - 1) - 1)
      else .good w rest) = Extracted.good v rest := by
    rw [if_neg (by simp), digitsVal_toDigits hb hb']
    have hw : (if decide (v < 0) then -((v.natAbs : Nat) : Int) else ((v.natAbs : Nat) : Int)) = v := by
      by_cases h0 : v < 0
      · rw [if_pos (by simpa using h0)]; omega
      · rw [if_neg (by simpa using h0)]; omega
    simp only
    rw [hw, if_neg (by have := hv.1; omega), if_neg (by have := hv.2; omega)]
  unfold extractInt
  rw [isSpace_eq, h]
  split
  · rename_i he; exact absurd he hnn
  · rw [hs]
    simp only
    rw [dropPrefix_num hb' hhex hne hr, htd.1, htd.2]
    exact key

theorem extractInt_word {bits : Nat} {v : Int} (hv : InRange bits v) {cs : List Char} {ws : List (List Char)}
    (h : words cs = decimal v :: ws) : ∃ rest, extractInt 10 bits cs = .good v rest ∧ words rest = ws := by
  obtain ⟨rest, h1, _, _, _, h5, h6⟩ := extractWord_words h
  rw [decimal_eq] at h1
  exact ⟨rest, extractInt_signed (by decide) (by decide) hv h1 h5, h6⟩

theorem readInt_word {bits : Nat} {v : Int} (hv : InRange bits v) {cs : List Char} {ws : List (List Char)}
    (h : words cs = decimal v :: ws) (old : Int) : readInt 10 bits cs old = v := by
  obtain ⟨rest, h1, _⟩ := extractInt_word hv h
  rw [readInt, h1]

theorem readBool_word {b : Bool} {cs : List Char} {ws : List (List Char)} (h : words cs = bit b :: ws) (old : Bool) :
    readBool cs old = b := by
  have hb : bit b = decimal (if b then 1 else 0) := by cases b <;> decide
  rw [hb] at h
  obtain ⟨rest, h1, _⟩ := extractInt_word (bits := 64) (by cases b <;> (unfold InRange; decide)) h
  rw [readBool, h1]
  cases b <;> rfl

theorem readWord_word {cs w : List Char} {ws : List (List Char)} (h : words cs = w :: ws) (old : List Char) : readWord cs old = w := by
  obtain ⟨rest, _, h2, h3, _⟩ := extractWord_words h
  rw [readWord, h2]
  simp [h3]

theorem readInts_words {l : List Int} (hl : ∀ v ∈ l, InRange 32 v) {cs : List Char} (h : words cs = l.map decimal) {fuel : Nat}
    (hf : l.length < fuel) : readInts fuel cs = l := by
  induction l generalizing cs fuel with
  | nil =>
    cases fuel with
    | zero => cases hf
    | succ fuel =>
      rcases extractWord_spec cs with ⟨_, h2, _⟩ | ⟨w, rest, h1, _⟩
      · rw [readInts, extractInt, isSpace_eq, h2]
      · rw [h1] at h; cases h
  | cons v l ih =>
    cases fuel with
    | zero => cases hf
    | succ fuel =>
      obtain ⟨rest, h1, h2⟩ := extractInt_word (hl v (by simp)) (h.trans (List.map_cons ..))
      rw [readInts, h1]
      simp only
      rw [ih (fun u hu => hl u (by simp [hu])) h2 (by simp only [List.length_cons] at hf; omega)]

/-! ## Lines -/

theorem parseLine_blank (wide : Nat) (readReal : List Char → R → R) (c : Params R) {line : List Char}
    (h : ∀ x ∈ visible line, x = ' ' ∨ x = '\t') : parseLine wide readReal c line = .ok c := by
  have : trimLeading (visible line) = [] := by
    unfold trimLeading
    rw [List.dropWhile_eq_nil_iff]
    intro x hx
    rcases h x hx with rfl | rfl <;> rfl
  rw [parseLine, trimTrailing_visible, this]
  rfl

theorem parseLine_words (wide : Nat) (readReal : List Char → R → R) (c : Params R) {line w : List Char} {ws : List (List Char)}
    (h : words (visible line) = w :: ws) : ∃ rest, words rest = ws ∧ Ends rest ∧ parseLine wide readReal c line =
      match (entries wide readReal).find? (fun e => decide (w = e.1)) with
      | some e => .ok (e.2 rest c)
      | none => .abort := by
  have hw : words (trimLeading (visible line)) = w :: ws := by
    rw [← h]
    refine words_dropBlank _ (fun x hx => ?_) _
    simp only [Bool.or_eq_true, beq_iff_eq] at hx
    rcases hx with rfl | rfl <;> rfl
  obtain ⟨rest, h1, h2, h3, h4, h5, h6⟩ := extractWord_words hw
  refine ⟨rest, h6, h5, ?_⟩
  rw [parseLine, trimTrailing_visible]
  have hne : ¬ (trimLeading (visible line)).isEmpty = true := by
    intro he
    rw [List.isEmpty_iff] at he
    rw [he] at hw
    cases hw
  simp only [if_neg hne, setParameterValue, h2]
  rfl

end HBT
