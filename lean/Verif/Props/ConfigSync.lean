import Verif.Model.ConfigSync
import Verif.Props.ConfigExample
/-!
# C52: all processes run with the configuration of the file
-/
set_option linter.unusedSectionVars false
namespace HBT.Props
open HBT HBT.Model HBT.Spec
variable {R : Type} {P : Nat}

/-- The root has `A`, the others what `B` says. -/
def mixed (root : Fin P) (A : Params R) (B : Fin P → Params R) : World R P := fun r => if r = root then A else B r

theorem mixed_root (root : Fin P) (A : Params R) (B : Fin P → Params R) : mixed root A B root = A := if_pos rfl

theorem syncAtom_mixed {α : Type} (root : Fin P) (get : Params R → α) (set : α → Params R → Params R) (A : Params R)
    (B : Fin P → Params R) (h : set (get A) A = A) :
    syncAtom root get set (mixed root A B) = .ok (mixed root A (fun r => set (get A) (B r))) := by
  unfold syncAtom
  rw [mixed_root]
  congr 1
  funext r
  unfold mixed
  split_ifs
  · exact h
  · rfl

theorem syncVec_mixed {α : Type} (root : Fin P) (get : Params R → List α) (set : List α → Params R → Params R) (A : Params R)
    (B : Fin P → Params R) (h : (get A).length < 2 ^ 31 - 1) :
    syncVec root get set (mixed root A B) = .ok (mixed root A (fun r => set (get A) (B r))) := by
  unfold syncVec
  rw [mixed_root, if_neg (by omega)]
  congr 1
  funext r
  unfold mixed
  split_ifs <;> rfl

theorem getLines_line (s rest line : List Char) (h : '\n' ∉ s) :
    getLines line (s ++ '\n' :: rest) = (line.reverse ++ s) :: getLines [] rest := by
  induction s generalizing line with
  | nil => simp [getLines]
  | cons c s ih =>
    rw [List.cons_append, getLines, if_neg (fun hh => h (by simp [hh])), ih _ (fun hh => h (by simp [hh]))]
    simp

theorem getLines_names (l : List (List Char)) (h : ∀ s ∈ l, '\n' ∉ s) : getLines [] (l.flatMap (fun s => s ++ ['\n'])) = l := by
  induction l with
  | nil => rfl
  | cons s l ih =>
    rw [List.flatMap_cons, List.append_assoc, List.singleton_append, getLines_line _ _ _ (h s (by simp)),
      ih (fun t ht => h t (by simp [ht]))]
    rfl

theorem syncStrings_mixed (root : Fin P) (get : Params R → List (List Char)) (set : List (List Char) → Params R → Params R) (A : Params R)
    (B : Fin P → Params R) (h : (get A).flatten.length + (get A).length < 2 ^ 31 - 1) (hn : ∀ s ∈ get A, '\n' ∉ s) :
    syncStrings root get set (mixed root A B) = .ok (mixed root A (fun r => set (get A) (B r))) := by
  have hlen : ∀ l : List (List Char), (l.flatMap (fun s => s ++ ['\n'])).length = l.flatten.length + l.length := by
    intro l
    induction l with
    | nil => rfl
    | cons s l ih =>
      rw [List.flatMap_cons, List.length_append, ih]
      simp only [List.length_append, List.length_cons, List.length_nil, List.flatten_cons]
      omega
  unfold syncStrings
  rw [mixed_root]
  simp only
  rw [if_neg (by rw [hlen]; omega), getLines_names _ hn]
  congr 1
  funext r
  unfold mixed
  split_ifs <;> rfl

/-- The texts and lists of a configuration fit into messages, and no snapshot name has a line break. -/
structure Sendable (c : Params R) : Prop where
  path : c.snapshotPath.length < 2 ^ 31 - 1
  halo : c.haloPath.length < 2 ^ 31 - 1
  sub : c.subhaloPath.length < 2 ^ 31 - 1
  base : c.snapshotFileBase.length < 2 ^ 31 - 1
  set : c.isSet.length < 2 ^ 31 - 1
  fmt : c.snapshotFormat.length < 2 ^ 31 - 1
  group : c.groupFileFormat.length < 2 ^ 31 - 1
  ids : c.snapshotIdList.length < 2 ^ 31 - 1
  names : c.snapshotNameList.flatten.length + c.snapshotNameList.length < 2 ^ 31 - 1
  lines : ∀ s ∈ c.snapshotNameList, '\n' ∉ s

/-- After the broadcast every process has exactly the configuration of the root, whatever it had before. -/
theorem C52_broadcast {root : Fin P} {st : World R P} (h : Sendable (st root)) : broadCast root st = .ok (fun _ => st root) := by
  have hst : st = mixed root (st root) st := by
    funext r
    unfold mixed
    split_ifs with hr
    · rw [hr]
    · rfl
  rw [hst, mixed_root]
  generalize st root = A at h
  rw [broadCast]
  rw [syncVec_mixed _ _ _ _ _ h.path, Outcome.bind_ok, syncVec_mixed _ _ _ _ _ h.halo, Outcome.bind_ok,
    syncVec_mixed _ _ _ _ _ h.sub, Outcome.bind_ok, syncVec_mixed _ _ _ _ _ h.base, Outcome.bind_ok,
    syncAtom_mixed _ _ _ _ _ rfl, Outcome.bind_ok, syncAtom_mixed _ _ _ _ _ rfl, Outcome.bind_ok,
    syncAtom_mixed _ _ _ _ _ rfl, Outcome.bind_ok, syncVec_mixed _ _ _ _ _ h.set, Outcome.bind_ok,
    syncVec_mixed _ _ _ _ _ h.fmt, Outcome.bind_ok, syncVec_mixed _ _ _ _ _ h.group, Outcome.bind_ok]
  iterate 14 rw [syncAtom_mixed _ _ _ _ _ rfl, Outcome.bind_ok]
  rw [syncVec_mixed _ _ _ _ _ h.ids, Outcome.bind_ok, syncStrings_mixed _ _ _ _ _ h.names h.lines, Outcome.bind_ok]
  iterate 16 rw [syncAtom_mixed _ _ _ _ _ rfl, Outcome.bind_ok]
  rw [syncAtom_mixed _ _ _ _ _ rfl]
  congr 1
  funext r
  unfold mixed
  split_ifs
  · rfl
  · rfl

/-- Non-vacuity of `C52_broadcast`, with snapshot names. -/
example : Sendable { exampleConfig with snapshotNameList := ["snapshot_000_z020".toList, "b".toList, "c".toList] } := by
  refine ⟨?_, ?_, ?_, ?_, ?_, ?_, ?_, ?_, ?_, ?_⟩ <;> decide +kernel

theorem extractWord_noline (cs : List Char) : '\n' ∉ (extractWord cs).1 := by
  rcases extractWord_spec cs with ⟨_, _, h⟩ | ⟨w, rest, _, _, h, _, h5, _⟩
  · rw [h]; simp
  · rw [h]
    intro hh
    exact absurd (h5 _ hh) (by decide)

/-- Parsing the file on one process and sharing the result: all processes have the configuration read, if its
texts are shorter than 2^31-1 characters. -/
theorem C52_after_parsing [Field R] {wide : Nat} {rd : List Char → R → R} {names : Option (List (List Char))} {c0 c : Params R}
    {lines : List (List Char)} (hc : parseConfig wide rd names c0 lines = .ok c) (h0 : c0.snapshotNameList = [])
    (hset : c0.isSet.length = 7) (hword : ∀ p ∈ wordParams (R := R), (p.2 c).length < 2 ^ 31 - 1)
    (hids : c.snapshotIdList.length < 2 ^ 31 - 1)
    (hnames : c.snapshotNameList.flatten.length + c.snapshotNameList.length < 2 ^ 31 - 1)
    {root : Fin P} {st : World R P} (hroot : st root = c) : broadCast root st = .ok (fun _ => c) := by
  have hs : c.isSet.length = 7 := by
    obtain ⟨c1, l, h1, _, rfl, _⟩ := parse_fold hc
    exact (isSet_length h1).trans hset
  have hl : ∀ s ∈ c.snapshotNameList, '\n' ∉ s := by
    rw [parseConfig] at hc
    rcases fold_total wide rd lines c0 with ⟨c1, h1⟩ | h1
    · rw [h1, Outcome.bind_ok] at hc
      cases h2 : checkUnset c1 with
      | ub => rw [h2] at hc; cases hc
      | abort => rw [h2] at hc; cases hc
      | diverge => rw [h2] at hc; cases hc
      | ok u =>
        rw [h2, Outcome.bind_ok] at hc
        have hk : (deriveParams c1).snapshotNameList = [] := (nameList_keep h1).trans h0
        cases names with
        | none =>
          rw [readNames] at hc
          split_ifs at hc
          cases hc
          intro s hs
          rw [hk] at hs
          cases hs
        | some nl =>
          rw [readNames] at hc
          simp only at hc
          split_ifs at hc
          cases hc
          intro s hs
          simp only [hk, List.nil_append] at hs
          obtain ⟨l, _, rfl⟩ := List.mem_map.1 (List.mem_of_mem_filter hs)
          exact extractWord_noline _
    · rw [h1] at hc; cases hc
  rw [← hroot] at hs hl hids hnames hword
  rw [← hroot]
  refine C52_broadcast ⟨hword _ (List.mem_of_getElem? (i := 0) rfl), hword _ (List.mem_of_getElem? (i := 1) rfl),
    hword _ (List.mem_of_getElem? (i := 2) rfl), hword _ (List.mem_of_getElem? (i := 3) rfl), by omega,
    hword _ (List.mem_of_getElem? (i := 4) rfl), hword _ (List.mem_of_getElem? (i := 5) rfl), hids, hnames, hl⟩

end HBT.Props
