import Verif.Spec.ConfigDefaults
import Verif.Props.ConfigSync
import Mathlib.Tactic.NormNum
import Mathlib.Tactic.FieldSimp
import Mathlib.Algebra.CharZero.Defs
/-!
# C45: the values of parameters that are not given, and C52: texts that cannot be sent
-/
namespace HBT.Props
open HBT HBT.Model HBT.Spec
variable {R : Type}

/-- C45. After reading a configuration file, every optional parameter without a line in it has the default value. -/
theorem C45_default_values [Field R] [CharZero R] {wide : Nat} {rd : List Char → R → R} {names : Option (List (List Char))} {merge : Bool} {u c : Params R}
    {lines : List (List Char)} (h : parseConfig wide rd names (defaults merge u) lines = .ok c) :
    (∀ p ∈ intParams (R := R) wide, ∀ v, (p.1, v) ∈ defaultInts → (∀ l ∈ lines, firstWord l ≠ some p.1) → p.2.2 c = v) ∧
    (∀ p ∈ switchParams (R := R), ∀ v, (p.1, v) ∈ defaultSwitches merge → (∀ l ∈ lines, firstWord l ≠ some p.1) → p.2 c = v) ∧
    (∀ p ∈ wordParams (R := R), ∀ v, (p.1, v) ∈ defaultWords → (∀ l ∈ lines, firstWord l ≠ some p.1) → p.2 c = v) ∧
    (∀ p ∈ realParams (R := R), ∀ v, (p.1, v) ∈ defaultReals → (∀ l ∈ lines, firstWord l ≠ some p.1) → p.2 c = v) := by
  obtain ⟨h1, h2, h3, h4⟩ := C45_default h
  refine ⟨fun p hp v hv hl => ?_, fun p hp v hv hl => ?_, fun p hp v hv hl => ?_, fun p hp v hv hl => ?_⟩
  · rw [h1 p hp hl]
    simp only [intParams, List.mem_cons, List.not_mem_nil, or_false] at hp
    rcases hp with rfl | rfl | rfl | rfl | rfl | rfl | rfl <;> simp [defaultInts] at hv <;> subst hv <;> rfl
  · rw [h2 p hp hl]
    simp only [switchParams, List.mem_cons, List.not_mem_nil, or_false] at hp
    rcases hp with rfl | rfl | rfl | rfl | rfl | rfl | rfl <;> simp [defaultSwitches] at hv <;> subst hv <;> rfl
  · rw [h3 p hp hl]
    simp only [wordParams, List.mem_cons, List.not_mem_nil, or_false] at hp
    rcases hp with rfl | rfl | rfl | rfl | rfl | rfl <;> simp [defaultWords] at hv <;> subst hv <;> rfl
  · rw [h4 p hp hl]
    simp only [realParams, List.mem_cons, List.not_mem_nil, or_false] at hp
    rcases hp with rfl | rfl | rfl | rfl | rfl | rfl | rfl | rfl | rfl | rfl | rfl <;> simp [defaultReals] at hv <;> subst hv <;>
      simp only [defaults] <;> norm_num

/-- The tables name all optional parameters that have a value of their own, but `MaxConcurrentIO`. -/
example : (((intParams (R := Unit) 64).map Prod.fst).filter (fun n => decide (n ∉ compulsory ∧ n ∉ defaultInts.map Prod.fst))) =
    ["MaxConcurrentIO".toList] := by decide +kernel
example : ∀ n ∈ (switchParams (R := Unit)).map Prod.fst, n ∈ (defaultSwitches true).map Prod.fst := by decide +kernel
example : ∀ n ∈ (wordParams (R := Unit)).map Prod.fst, n ∉ compulsory → n ∈ defaultWords.map Prod.fst := by decide +kernel
example : ∀ n ∈ (realParams (R := ℚ)).map Prod.fst, n ∉ compulsory → n ∈ (defaultReals (R := ℚ)).map Prod.fst := by decide +kernel

/-- C45, finding: without a line for it, `MaxConcurrentIO` is 10; configs/Example.conf:21 says 16. -/
theorem C45_max_io_default [Field R] {wide : Nat} {rd : List Char → R → R} {names : Option (List (List Char))} {merge : Bool} {u c : Params R}
    {lines : List (List Char)} (h : parseConfig wide rd names (defaults merge u) lines = .ok c)
    (hl : ∀ l ∈ lines, firstWord l ≠ some "MaxConcurrentIO".toList) : c.maxConcurrentIO = 10 := by
  have := (C45_default h).1 ("MaxConcurrentIO".toList, 32, (·.maxConcurrentIO)) (by simp [intParams]) hl
  simpa [defaults] using this

/-- Non-vacuity: such a file is accepted. -/
example : (do let c ← parseConfig 32 readWhole none (defaults true blankParams) enough
              pure (c.maxConcurrentIO, c.minNumPartOfSub, c.refineMostboundParticle, c.snapshotFormat, c.boundMassPrecision)) =
    .ok (10, 20, true, "gadget".toList, 199 / 200) := by decide +kernel
example : ∀ l ∈ enough, firstWord l ≠ some "MaxConcurrentIO".toList ∧ firstWord l ≠ some "BoundMassPrecision".toList := by decide +kernel

/-! ## Texts that cannot be sent -/

theorem syncVec_long {P : Nat} {α : Type} (root : Fin P) (get : Params R → List α) (set : List α → Params R → Params R) (A : Params R)
    (B : Fin P → Params R) (h : ¬ (get A).length < 2 ^ 31 - 1) : syncVec root get set (mixed root A B) = .abort := by
  rw [syncVec, mixed_root, if_pos (by omega)]

theorem syncStrings_long {P : Nat} (root : Fin P) (get : Params R → List (List Char)) (set : List (List Char) → Params R → Params R) (A : Params R)
    (B : Fin P → Params R) (h : ¬ ((get A).flatten.length + (get A).length < 2 ^ 31 - 1)) : syncStrings root get set (mixed root A B) = .abort := by
  have hlen : ∀ l : List (List Char), (l.flatMap (fun s => s ++ ['\n'])).length = l.flatten.length + l.length := by
    intro l
    induction l with
    | nil => rfl
    | cons s l ih => simp only [List.flatMap_cons, List.length_append, ih, List.flatten_cons, List.length_cons, List.length_nil]; omega
  rw [syncStrings, mixed_root, if_pos (by rw [hlen]; omega)]

/-- C52. If a text, the list of snapshot ids or the list of snapshot names is too long to be sent (2^31-1 or more), the program stops: no process goes on with
a part of it. -/
theorem C52_too_long {P : Nat} {root : Fin P} {st : World R P} (hset : (st root).isSet.length < 2 ^ 31 - 1)
    (h : (∃ p ∈ wordParams (R := R), 2 ^ 31 - 1 ≤ (p.2 (st root)).length) ∨ 2 ^ 31 - 1 ≤ (st root).snapshotIdList.length ∨
      2 ^ 31 - 1 ≤ (st root).snapshotNameList.flatten.length + (st root).snapshotNameList.length) :
    broadCast root st = .abort := by
  have hst : st = mixed root (st root) st := by
    funext r
    unfold mixed
    split_ifs with hr
    · rw [hr]
    · rfl
  rw [hst, broadCast]
  generalize st root = A at h hset
  by_cases h1 : A.snapshotPath.length < 2 ^ 31 - 1
  swap
  · rw [syncVec_long _ _ _ _ _ h1]; rfl
  rw [syncVec_mixed _ _ _ _ _ h1, Outcome.bind_ok]
  by_cases h2 : A.haloPath.length < 2 ^ 31 - 1
  swap
  · rw [syncVec_long _ _ _ _ _ h2]; rfl
  rw [syncVec_mixed _ _ _ _ _ h2, Outcome.bind_ok]
  by_cases h3 : A.subhaloPath.length < 2 ^ 31 - 1
  swap
  · rw [syncVec_long _ _ _ _ _ h3]; rfl
  rw [syncVec_mixed _ _ _ _ _ h3, Outcome.bind_ok]
  by_cases h4 : A.snapshotFileBase.length < 2 ^ 31 - 1
  swap
  · rw [syncVec_long _ _ _ _ _ h4]; rfl
  rw [syncVec_mixed _ _ _ _ _ h4, Outcome.bind_ok, syncAtom_mixed _ _ _ _ _ rfl, Outcome.bind_ok, syncAtom_mixed _ _ _ _ _ rfl, Outcome.bind_ok,
    syncAtom_mixed _ _ _ _ _ rfl, Outcome.bind_ok, syncVec_mixed _ _ _ _ _ hset, Outcome.bind_ok]
  by_cases h5 : A.snapshotFormat.length < 2 ^ 31 - 1
  swap
  · rw [syncVec_long _ _ _ _ _ h5]; rfl
  rw [syncVec_mixed _ _ _ _ _ h5, Outcome.bind_ok]
  by_cases h6 : A.groupFileFormat.length < 2 ^ 31 - 1
  swap
  · rw [syncVec_long _ _ _ _ _ h6]; rfl
  rw [syncVec_mixed _ _ _ _ _ h6, Outcome.bind_ok]
  iterate 14 rw [syncAtom_mixed _ _ _ _ _ rfl, Outcome.bind_ok]
  by_cases h7 : A.snapshotIdList.length < 2 ^ 31 - 1
  swap
  · rw [syncVec_long _ _ _ _ _ h7]; rfl
  rw [syncVec_mixed _ _ _ _ _ h7, Outcome.bind_ok]
  have h8 : ¬ (A.snapshotNameList.flatten.length + A.snapshotNameList.length < 2 ^ 31 - 1) := by
    rcases h with ⟨p, hp, hl⟩ | hl | hl
    · exfalso
      simp only [wordParams, List.mem_cons, List.not_mem_nil, or_false] at hp
      rcases hp with rfl | rfl | rfl | rfl | rfl | rfl <;> simp only at hl <;> omega
    · omega
    · omega
  rw [syncStrings_long _ _ _ _ _ h8]
  rfl

/-- Non-vacuity: a path that is too long. -/
example (n : Nat) (hn : 2 ^ 31 - 1 ≤ n) : broadCast (P := 3) 1 (fun _ => { exampleConfig with haloPath := List.replicate n 'a' }) = .abort :=
  C52_too_long (by change exampleConfig.isSet.length < _; decide +kernel)
    (Or.inl ⟨("HaloPath".toList, (·.haloPath)), List.mem_of_getElem? (i := 1) rfl, by
      change _ ≤ (List.replicate n 'a').length
      rw [List.length_replicate]
      exact hn⟩)

end HBT.Props
