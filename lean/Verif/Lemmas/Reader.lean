import Verif.Model.Reader
import Verif.Props.Main
/-!
# Lemmas about the catalogue reader
-/
set_option linter.unusedSectionVars false
namespace HBT
open HBT.Model HBT.Spec HBT.Props
variable {K D E S R : Type}

/-- The files of a snapshot, as the reader finds them: `fs i` is file `i` of snapshot `isnap`. -/
def FilesAt (root : SubRoot K D) (rd : Reader) (isnap : Int) (fs : List (SubFile K D)) : Prop :=
  fs.length = max rd.nfiles 1 ∧ ∀ (i : Nat) (f : SubFile K D), fs[i]? = some f → openFile root rd isnap i = .ok f

theorem loadRows_ok {root : SubRoot K D} {rd : Reader} {isnap : Int} : ∀ (fs : List (SubFile K D)) (i : Nat),
    (∀ (k : Nat) (f : SubFile K D), fs[k]? = some f → openFile root rd isnap (i + k) = .ok f) →
    loadRows root rd isnap fs.length i = .ok (fs.flatMap SubFile.table)
  | [], _, _ => rfl
  | f :: fs, i, h => by
    rw [List.length_cons, loadRows, show i = i + 0 from rfl, h 0 f rfl, Outcome.bind_ok]
    rw [loadRows_ok fs (i + 0 + 1) (fun k g hg => by
      have := h (k + 1) g (by simpa using hg)
      rwa [show i + 0 + 1 + k = i + (k + 1) by omega]), Outcome.bind_ok]
    rfl

theorem loadSubhalos_ok {root : SubRoot K D} {rd : Reader} {isnap : Int} {fs : List (SubFile K D)} (h : FilesAt root rd isnap fs) :
    loadSubhalos root rd isnap = .ok (fs.flatMap SubFile.table) := by
  rw [loadSubhalos, ← h.1]
  exact loadRows_ok fs 0 (fun k f hf => by rw [Nat.zero_add]; exact h.2 k f hf)

theorem pyIndex_ok {α : Type} {l : List α} {k : Nat} (h : k < l.length) : pyIndex l (k : Int) = .ok l[k] := by
  rw [pyIndex, if_neg (by omega), Int.toNat_natCast, List.getElem?_eq_getElem h]
  simp only
  rw [if_neg (by omega)]

theorem loadRow_ok {root : SubRoot K D} {rd : Reader} {isnap : Int} : ∀ (fs : List (SubFile K D)) (i o k : Nat),
    (∀ (k : Nat) (f : SubFile K D), fs[k]? = some f → openFile root rd isnap (i + k) = .ok f) →
    loadRow root rd isnap ((o + k : Nat) : Int) fs.length i o = .ok (fs.flatMap SubFile.table)[k]?.toList
  | [], _, _, _, _ => rfl
  | f :: fs, i, o, k, h => by
    have hrest : ∀ (k : Nat) (g : SubFile K D), fs[k]? = some g → openFile root rd isnap (i + 1 + k) = .ok g := fun k g hg => by
      have := h (k + 1) g (by simpa using hg)
      rwa [show i + 1 + k = i + (k + 1) by omega]
    have h0 := h 0 f rfl
    rw [Nat.add_zero] at h0
    rw [List.length_cons, loadRow, h0, Outcome.bind_ok, List.flatMap_cons]
    by_cases hz : f.table.length = 0
    · rw [if_pos hz, List.length_eq_zero_iff.1 hz, List.nil_append]
      exact loadRow_ok fs (i + 1) o k hrest
    · rw [if_neg hz]
      by_cases hk : k < f.table.length
      · rw [if_pos (by push_cast; omega), show ((o + k : Nat) : Int) - o = (k : Nat) by push_cast; omega, pyIndex_ok hk, Outcome.bind_ok,
          List.getElem?_append_left hk, List.getElem?_eq_getElem hk]
        rfl
      · rw [if_neg (by push_cast; omega), List.getElem?_append_right (by omega)]
        have := loadRow_ok fs (i + 1) (o + f.table.length) (k - f.table.length) hrest
        rw [show o + f.table.length + (k - f.table.length) = o + k by omega] at this
        rw [← this]
        push_cast
        rfl

theorem loadSubhalo_ok {root : SubRoot K D} {rd : Reader} {isnap : Int} {fs : List (SubFile K D)} (h : FilesAt root rd isnap fs) (k : Nat) :
    loadSubhalo root rd isnap k = .ok (fs.flatMap SubFile.table)[k]?.toList := by
  rw [loadSubhalo, ← h.1]
  have := loadRow_ok fs 0 0 k (fun k f hf => by rw [Nat.zero_add]; exact h.2 k f hf)
  rw [Nat.zero_add] at this
  exact this

theorem loadLists_ok {get : Nat → Outcome (List (List Int))} : ∀ (ls : List (List (List Int))) (i : Nat),
    (∀ (k : Nat) (l : List (List Int)), ls[k]? = some l → get (i + k) = .ok l) → loadLists get ls.length i = .ok ls.flatten
  | [], _, _ => rfl
  | l :: ls, i, h => by
    have h0 := h 0 l rfl
    rw [Nat.add_zero] at h0
    rw [List.length_cons, loadLists, h0, Outcome.bind_ok, loadLists_ok ls (i + 1) (fun k g hg => by
      have := h (k + 1) g (by simpa using hg)
      rwa [show i + 1 + k = i + (k + 1) by omega]), Outcome.bind_ok]
    rfl

theorem loadList_ok {get : Nat → Outcome (List (List Int))} : ∀ (ls : List (List (List Int))) (i o k : Nat),
    (∀ (k : Nat) (l : List (List Int)), ls[k]? = some l → get (i + k) = .ok l) →
    loadList get ((o + k : Nat) : Int) ls.length i o = (match ls.flatten[k]? with | some l => .ok l | none => .abort)
  | [], _, _, _, _ => rfl
  | l :: ls, i, o, k, h => by
    have h0 := h 0 l rfl
    rw [Nat.add_zero] at h0
    rw [List.length_cons, loadList, h0, Outcome.bind_ok, List.flatten_cons]
    by_cases hk : k < l.length
    · rw [if_pos (by push_cast; omega), show ((o + k : Nat) : Int) - o = (k : Nat) by push_cast; omega, pyIndex_ok hk,
        List.getElem?_append_left hk, List.getElem?_eq_getElem hk]
    · rw [if_neg (by push_cast; omega), List.getElem?_append_right (by omega)]
      have := loadList_ok ls (i + 1) (o + l.length) (k - l.length) (fun k g hg => by
        have := h (k + 1) g (by simpa using hg)
        rwa [show i + 1 + k = i + (k + 1) by omega])
      rw [show o + l.length + (k - l.length) = o + k by omega] at this
      rw [← this]
      push_cast
      rfl

theorem getSub_ok {root : SubRoot K D} {rd : Reader} {isnap : Int} {fs : List (SubFile K D)} (h : FilesAt root rd isnap fs)
    (hn : rd.nfiles ≠ 0) (t : Int) :
    getSub root rd t isnap = (match (fs.flatMap SubFile.table).find? (fun s => decide (s.trackId = t)) with
      | some s => .ok [s] | none => .abort) := by
  rw [getSub, if_pos hn, loadSubhalos_ok h, Outcome.bind_ok]
  obtain ⟨rows, hr⟩ : ∃ rows, rows = fs.flatMap SubFile.table := ⟨_, rfl⟩
  have hs := loadSubhalo_ok h
  rw [← hr] at hs ⊢
  cases hf : rows.findIdx? (fun s => decide (s.trackId = t)) with
  | none =>
    rw [List.findIdx?_eq_none_iff] at hf
    rw [List.find?_eq_none.2 (fun x hx => by simpa using hf x hx)]
  | some k =>
    simp only [hs]
    obtain ⟨hk, h1, h2⟩ := List.findIdx?_eq_some_iff_getElem.1 hf
    have : rows.find? (fun s => decide (s.trackId = t)) = some rows[k] := by
      rw [List.find?_eq_some_iff_getElem]
      exact ⟨h1, k, hk, rfl, fun j hj => by simpa using h2 j hj⟩
    rw [this, List.getElem?_eq_getElem hk]
    rfl

/-! ## Catalogues that are complete -/

/-- The files of a saved snapshot. -/
theorem filesAt_of_holds {P : Nat} {root : SubRoot K D} {rd : Reader} {isnap i : Int} {snapId : Int} {st : Fin P → List (Sub K D)}
    (hh : Holds snapId st (root.multi i)) (hP : 0 < P) (hn : rd.nfiles = P)
    (hi : i = if isnap < 0 then rd.maxSnap + 1 + isnap else isnap) :
    FilesAt root rd isnap (List.ofFn (fileOf snapId st)) := by
  refine ⟨by rw [List.length_ofFn, hn]; omega, fun k f hf => ?_⟩
  obtain ⟨hk, rfl⟩ := List.getElem?_eq_some_iff.1 hf
  rw [List.length_ofFn] at hk
  rw [openFile]
  simp only [← hi]
  rw [if_pos (by omega), hh.sub ⟨k, hk⟩, List.getElem_ofFn]

theorem flatMap_ofFn {α β : Type} {P : Nat} (f : Fin P → α) (g : α → List β) : (List.ofFn f).flatMap g = (List.ofFn (fun r => g (f r))).flatten := by
  rw [List.flatMap_def, List.map_ofFn]
  rfl

theorem table_everyone {P : Nat} (snapId : Int) (st : Fin P → List (Sub K D)) :
    (List.ofFn (fileOf snapId st)).flatMap SubFile.table = (everyone st).map properties := by
  rw [flatMap_ofFn]
  unfold everyone
  rw [List.map_flatten, List.map_ofFn]
  rfl

end HBT
