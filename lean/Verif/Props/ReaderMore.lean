import Verif.Props.Reader
import Verif.Props.ConfigDump
import Mathlib.Data.List.Dedup
/-!
# C69: parameters, combined catalogues, exclusive particles, and what the reader gets wrong
-/
set_option linter.unusedSectionVars false
namespace HBT.Props
open HBT HBT.Model HBT.Spec HBT.MainLoop
variable {K D R : Type}

/-! ## The parameter file -/

theorem words_dropWhile (l : List Char) : words (visible (l.dropWhile isSpace)) = words (visible l) := by
  induction l with
  | nil => rfl
  | cons c l ih =>
    by_cases hc : isSpace c = true
    · rw [List.dropWhile_cons_of_pos hc, ih]
      have hb : isBlank c = true := hc
      have hv : visible (c :: l) = c :: visible l := by
        unfold visible
        rw [List.takeWhile_cons_of_pos]
        cases h1 : (c == '#' || c == '[') with
        | false => rfl
        | true =>
          rcases Bool.or_eq_true _ _ ▸ h1 with h | h
          · rw [eq_of_beq h] at hb; exact absurd hb (by decide)
          · rw [eq_of_beq h] at hb; exact absurd hb (by decide)
      rw [hv, words_blank hb]
    · rw [List.dropWhile_cons_of_neg hc]

theorem before_visible (l : List Char) : beforeChar '[' (beforeChar '#' l) = visible l := by
  unfold beforeChar visible
  induction l with
  | nil => rfl
  | cons c l ih =>
    rw [List.takeWhile_cons, List.takeWhile_cons]
    by_cases h1 : (c == '#') = true
    · simp [h1]
    · simp only [Bool.not_eq_true] at h1
      simp only [h1, Bool.not_false, if_true, Bool.false_or, List.takeWhile_cons]
      by_cases h2 : (c == '[') = true
      · simp [h2]
      · simp only [Bool.not_eq_true] at h2
        simp only [h2, Bool.not_false, if_true, ih]

theorem configLine_eq (l : List Char) : configLine l = (match words (visible l) with | n :: v :: vs => some (n, v :: vs) | _ => none) := by
  unfold configLine pySplit
  rw [before_visible, words_dropWhile]
  cases words (visible l) with
  | nil => rfl
  | cons n ws => cases ws <;> rfl

theorem configGet_line {ls : List (List Char)} {n v : List Char} {vs : List (List Char)} {a b : List (List Char)} {l : List Char}
    (h : ls = a ++ l :: b) (hl : words (visible l) = n :: v :: vs) (hb : ∀ l' ∈ b, firstWord l' ≠ some n) :
    configGet ls n = .ok (v :: vs) := by
  have hnone : (b.reverse.filterMap configLine).find? (fun o => o.1 == n) = none := by
    rw [List.find?_eq_none]
    intro o ho
    obtain ⟨l', hl', e⟩ := List.mem_filterMap.1 ho
    have hne := hb l' (List.mem_reverse.1 hl')
    rw [configLine_eq] at e
    unfold firstWord at hne
    split at e
    · rename_i n' v' vs' hw
      cases e
      rw [hw] at hne
      intro hc
      exact hne (congrArg some (eq_of_beq hc))
    · cases e
  have hsome : configLine l = some (n, v :: vs) := by rw [configLine_eq, hl]
  rw [configGet, h, List.reverse_append, List.reverse_cons, List.append_assoc, List.filterMap_append, List.find?_append, hnone,
    List.filterMap_append, List.filterMap_cons, hsome]
  simp

/-- **C69.** The reader finds in the parameter file of a run the texts the run has written: the paths and formats, the integers in
decimal notation, the real numbers and the switches. -/
theorem C69_parameters {wide : Nat} {rd : List Char → R → R} {pr : R → List Char} {c : HBT.Params R} (hd : Dumpable wide rd pr c)
    (version : List Char) :
    (∀ p ∈ wordParams (R := R), configGet (dumpParameters pr version c) p.1 = .ok [p.2 c]) ∧
    (∀ p ∈ intParams (R := R) wide, configGet (dumpParameters pr version c) p.1 = .ok [decimal (p.2.2 c)]) ∧
    (∀ p ∈ realParams (R := R), configGet (dumpParameters pr version c) p.1 = .ok [pr (p.2 c)]) ∧
    ∀ p ∈ switchParams (R := R), configGet (dumpParameters pr version c) p.1 = .ok [bit (p.2 c)] := by
  refine ⟨fun p hp => ?_, fun p hp => ?_, fun p hp => ?_, fun p hp => ?_⟩
  · obtain ⟨a, l, b, h2, h3, h4, _⟩ := dump_line hd version (table_word (pr := pr) c p hp)
    exact configGet_line h2 h3 h4
  · obtain ⟨a, l, b, h2, h3, h4, _⟩ := dump_line hd version (table_int (pr := pr) c p hp)
    rw [← printInt_eq]
    exact configGet_line h2 h3 h4
  · obtain ⟨a, l, b, h2, h3, h4, _⟩ := dump_line hd version (table_real (pr := pr) c p hp)
    exact configGet_line h2 h3 h4
  · obtain ⟨a, l, b, h2, h3, h4, _⟩ := dump_line hd version (table_switch (pr := pr) c p hp)
    exact configGet_line h2 h3 h4

/-! ## Combined catalogues -/

/-- numpy's `argsort`: positions, each once, in ascending order of the keys. -/
def ArgSort (argsort : List Int → List Nat) : Prop :=
  ∀ keys, (argsort keys).Perm (List.range keys.length) ∧ ∃ sorted : List Int, (argsort keys).map (fun k => keys[k]?) = sorted.map some ∧ sorted.Pairwise (· ≤ ·)

theorem pickRows_ok {α : Type} (l : List α) : ∀ (order : List Nat) (out : List α), order.map (fun k => l[k]?) = out.map some →
    pickRows l order = .ok out
  | [], out, h => by
    cases out with
    | nil => rfl
    | cons a out => cases h
  | k :: ks, out, h => by
    cases out with
    | nil => cases h
    | cons a out =>
      rw [List.map_cons, List.map_cons] at h
      injection h with h1 h2
      rw [pickRows, get_some h1, Outcome.bind_ok, pickRows_ok l ks out h2, Outcome.bind_ok]

theorem pick_map {α β : Type} {l : List α} {order : List Nat} {out : List α} (f : α → β) (h : order.map (fun k => l[k]?) = out.map some) :
    order.map (fun k => (l.map f)[k]?) = (out.map f).map some := by
  have : (order.map (fun k => l[k]?)).map (Option.map f) = (out.map some).map (Option.map f) := by rw [h]
  rw [List.map_map, List.map_map] at this
  rw [List.map_map]
  simpa [Function.comp_def] using this

theorem pick_exists {α : Type} (l : List α) : ∀ order : List Nat, (∀ k ∈ order, k < l.length) → ∃ out : List α, order.map (fun k => l[k]?) = out.map some
  | [], _ => ⟨[], rfl⟩
  | k :: ks, h => by
    obtain ⟨out, ho⟩ := pick_exists l ks (fun j hj => h j (by simp [hj]))
    exact ⟨l[k]'(h k (by simp)) :: out, by rw [List.map_cons, List.map_cons, ho, List.getElem?_eq_getElem]⟩

theorem pick_perm {α : Type} {l : List α} {order : List Nat} {out : List α} (hp : order.Perm (List.range l.length))
    (h : order.map (fun k => l[k]?) = out.map some) : out.Perm l := by
  have h1 : (out.map some).Perm ((List.range l.length).map (fun k => l[k]?)) := by rw [← h]; exact hp.map _
  have h2 : (List.range l.length).map (fun k => l[k]?) = l.map some := by
    refine List.ext_getElem (by simp) fun k a b => ?_
    simp only [List.length_map, List.length_range] at a b
    simp
  rw [h2] at h1
  have := h1.filterMap id
  simpa [List.filterMap_map] using this

theorem filesOf_ok {disk : Disk K D} : ∀ (fs : List (SubFile K D)) (i : Nat),
    (∀ (k : Nat) (f : SubFile K D), fs[k]? = some f → disk.sub (i + k) = some f) → filesOf disk fs.length i = .ok fs
  | [], _, _ => rfl
  | f :: fs, i, h => by
    have h0 := h 0 f rfl
    rw [Nat.add_zero] at h0
    rw [List.length_cons, filesOf, h0]
    simp only [Outcome.bind_ok]
    rw [filesOf_ok fs (i + 1) (fun k g hg => by
      have := h (k + 1) g (by simpa using hg)
      rwa [show i + 1 + k = i + (k + 1) by omega]), Outcome.bind_ok]

/-- The file with the subhaloes `out` in this order. -/
def combinedFile (snapId : Int) (out : List (Sub K D)) : SubFile K D where
  numberOfFiles := 0
  snapshotId := snapId
  numAll := 0
  nested := out.map Sub.nested
  boundIds := out.map (fun s => (s.particles.map Particle.id).take s.nbound)
  table := out.map properties
  mostBound := out.map mostBoundId

/-- **C69.** Combining the files of a snapshot whose TrackIds are `0..N-1` gives one file in which the reader finds each track at the
position of its TrackId: its properties, its nested subhaloes and its bound particles. The number of the snapshot and the most bound
particles are in the file, too. -/
theorem C69_combined {P : Nat} (hP : 0 < P) {argsort : List Int → List Nat} (hs : ArgSort argsort) {snapId : Int} {st : Fin P → List (Sub K D)}
    {disk : Disk K D} (hh : Holds snapId st disk) (N : Nat) (hN : 0 < N)
    (hdense : ((everyone st).map Sub.trackId).Perm ((List.range N).map (fun i : Nat => (i : Int)))) :
    ∃ f, combineSubSnap argsort disk = .ok f ∧ f.snapshotId = snapId ∧ f.mostBound.length = N ∧
      (∀ s ∈ everyone st, f.mostBound[s.trackId.toNat]? = some (mostBoundId s)) ∧ ∀ (root : SubRoot K D) (m isnap : Int),
      root.single (if isnap < 0 then m + 1 + isnap else isnap) = some f →
      getNumberOfSubhalos root ⟨m, 0⟩ isnap = .ok N ∧ (∃ l, loadSubhalos root ⟨m, 0⟩ isnap = .ok l ∧ l.length = N ∧
        ∀ s ∈ everyone st, l[s.trackId.toNat]? = some (properties s)) ∧ (∃ l, loadNested root ⟨m, 0⟩ isnap = .ok l ∧ l.length = N ∧
        ∀ s ∈ everyone st, l[s.trackId.toNat]? = some s.nested) ∧
      ∀ s ∈ everyone st, getSub root ⟨m, 0⟩ s.trackId isnap = .ok [properties s] ∧
        shownParticlesOf root ⟨m, 0⟩ false isnap s.trackId = .ok ((s.particles.map Particle.id).take s.nbound) := by
  obtain ⟨hp, sorted, hk, hsort⟩ := hs ((everyone st).map Sub.trackId)
  obtain ⟨order, ho⟩ : ∃ order, order = argsort ((everyone st).map Sub.trackId) := ⟨_, rfl⟩
  rw [← ho] at hp hk
  rw [List.length_map] at hp
  obtain ⟨out, hout⟩ := pick_exists (everyone st) order (fun k hk => List.mem_range.1 (hp.mem_iff.1 hk))
  have hperm := pick_perm hp hout
  have hids : out.map Sub.trackId = (List.range N).map (fun i : Nat => (i : Int)) := by
    have h1 := pick_map Sub.trackId hout
    rw [hk] at h1
    have h2 : sorted = out.map Sub.trackId := List.map_injective_iff.2 (Option.some_injective _) h1
    refine ((hperm.map Sub.trackId).trans hdense).eq_of_pairwise (le := fun a b => a ≤ b) (fun a b _ _ h1 h2 => le_antisymm h1 h2) (h2 ▸ hsort) ?_
    rw [List.pairwise_map]
    exact List.pairwise_lt_range.imp (fun h => by exact_mod_cast h.le)
  have hlen : out.length = N := by
    have := congrArg List.length hids
    simpa using this
  have hpos : ∀ s ∈ everyone st, 0 ≤ s.trackId ∧ out[s.trackId.toNat]? = some s := by
    intro s hs
    have hs' := hperm.mem_iff.2 hs
    obtain ⟨k, hk⟩ := List.getElem?_of_mem hs'
    have : (out.map Sub.trackId)[k]? = some s.trackId := by rw [List.getElem?_map, hk]; rfl
    rw [hids, List.getElem?_map] at this
    obtain ⟨hkl, _⟩ := List.getElem?_eq_some_iff.1 hk
    rw [List.getElem?_range (by omega)] at this
    have e : (k : Int) = s.trackId := by simpa using this
    exact ⟨by omega, by rw [← e, Int.toNat_natCast]; exact hk⟩
  have hfiles : filesOf disk P 0 = .ok (List.ofFn (fileOf snapId st)) := by
    have := filesOf_ok (disk := disk) (List.ofFn (fileOf snapId st)) 0 (fun k f hf => by
      rw [List.getElem?_ofFn] at hf
      split at hf
      · rename_i hkP
        cases hf
        rw [Nat.zero_add]
        exact hh.sub ⟨k, hkP⟩
      · cases hf)
    rwa [List.length_ofFn] at this
  have hflat : ∀ {α : Type} (g : SubFile K D → List α) (q : Sub K D → α), (∀ r, g (fileOf snapId st r) = (st r).map q) →
      (List.ofFn (fileOf snapId st)).flatMap g = (everyone st).map q := by
    intro α g q hg
    rw [flatMap_ofFn]
    unfold everyone
    rw [List.map_flatten, List.map_ofFn]
    congr 2
    funext r
    exact hg r
  have e1 := hflat SubFile.table properties (fun r => rfl)
  have e2 := hflat SubFile.mostBound mostBoundId (fun r => rfl)
  have e3 := hflat SubFile.boundIds (fun s => (s.particles.map Particle.id).take s.nbound) (fun r => rfl)
  have e4 := hflat SubFile.nested Sub.nested (fun r => rfl)
  have e5 : ((everyone st).map properties).map Sub.trackId = (everyone st).map Sub.trackId := by rw [List.map_map]; rfl
  refine ⟨combinedFile snapId out, ?_, rfl, by rw [combinedFile, List.length_map, hlen], fun s hs => by
    rw [combinedFile, List.getElem?_map, (hpos s hs).2]; rfl, ?_⟩
  · rw [combineSubSnap, hh.sub ⟨0, hP⟩]
    simp only [Outcome.bind_ok]
    rw [show (fileOf snapId st ⟨0, hP⟩).numberOfFiles = P from rfl, hfiles, Outcome.bind_ok, e1, e2, e3, e4, e5, ← ho,
      pickRows_ok _ _ _ (pick_map properties hout), Outcome.bind_ok, pickRows_ok _ _ _ (pick_map mostBoundId hout), Outcome.bind_ok,
      pickRows_ok _ _ _ (pick_map _ hout), Outcome.bind_ok, pickRows_ok _ _ _ (pick_map Sub.nested hout), Outcome.bind_ok,
      if_neg (by rw [List.length_map, ← hperm.length_eq]; omega)]
    rfl
  · intro root m isnap hroot
    have hopen : openFile root ⟨m, 0⟩ isnap 0 = .ok (combinedFile snapId out) := by
      rw [openFile]
      simp only [ne_eq, not_true_eq_false, if_false]
      rw [hroot]
    refine ⟨?_, ⟨out.map properties, ?_, by rw [List.length_map, hlen], fun s hs => ?_⟩,
      ⟨out.map Sub.nested, ?_, by rw [List.length_map, hlen], fun s hs => ?_⟩, fun s hs => ?_⟩
    · rw [getNumberOfSubhalos, hopen, Outcome.bind_ok, if_neg (by simp), combinedFile, List.length_map, hlen]
    · rw [loadSubhalos]
      show loadRows root ⟨m, 0⟩ isnap 1 0 = _
      rw [loadRows, hopen, Outcome.bind_ok]
      simp [loadRows, Outcome.bind_ok, combinedFile]
    · rw [List.getElem?_map, (hpos s hs).2]; rfl
    · rw [loadNested]
      show loadLists _ 1 0 = _
      rw [loadLists, openNested, hopen, Outcome.bind_ok]
      simp [loadLists, Outcome.bind_ok, combinedFile]
    · rw [List.getElem?_map, (hpos s hs).2]; rfl
    · obtain ⟨p1, p2⟩ := hpos s hs
      have hcast : s.trackId = ((s.trackId.toNat : Nat) : Int) := by omega
      constructor
      · rw [getSub, if_neg (by simp), hcast]
        have hf : FilesAt root ⟨m, 0⟩ isnap [combinedFile snapId out] := by
          refine ⟨rfl, fun i f hf => ?_⟩
          cases i with
          | zero => cases hf; exact hopen
          | succ i => cases hf
        rw [loadSubhalo_ok hf]
        simp only [List.flatMap_cons, List.flatMap_nil, List.append_nil, combinedFile, List.getElem?_map, p2]
        rfl
      · rw [shownParticlesOf, hcast]
        have := loadList_ok (get := openLists root ⟨m, 0⟩ false isnap) [out.map (fun s => (s.particles.map Particle.id).take s.nbound)] 0 0 s.trackId.toNat
          (fun k l hl => by
            cases k with
            | zero =>
              cases hl
              rw [openLists, if_neg (by decide), hopen, Outcome.bind_ok]
              rfl
            | succ k => cases hl)
        rw [Nat.zero_add] at this
        show loadList _ _ 1 0 0 = _
        refine Eq.trans this ?_
        simp only [List.flatten_cons, List.flatten_nil, List.append_nil, List.getElem?_map, p2]
        rfl

/-- **C69.** The number of subhaloes cannot be asked of a catalogue of several files: the reader looks for a dataset of another name. -/
theorem C69_number_multi (root : SubRoot K D) (rd : Reader) (hn : rd.nfiles ≠ 0) (isnap : Int) :
    ∀ n, getNumberOfSubhalos root rd isnap ≠ .ok n := by
  intro n h
  rw [getNumberOfSubhalos] at h
  obtain ⟨f, _, h2⟩ := HBT.bind_eq_ok h
  rw [if_pos hn, if_neg (by decide)] at h2
  cases h2

/-- **C69.** A snapshot written by more processes than the last one is read without those of its files the last one does not have,
and without a message. -/
theorem C69_fewer_files {P n : Nat} {root : SubRoot K D} {m : Int} {snapId i : Int} {st : Fin P → List (Sub K D)}
    (hh : Holds snapId st (root.multi i)) (hi : 0 ≤ i) (hn : 0 < n) (hnP : n ≤ P) :
    loadSubhalos root ⟨m, n⟩ i = .ok (((List.ofFn st).take n).flatten.map properties) := by
  have hf : FilesAt root ⟨m, n⟩ i ((List.ofFn (fileOf snapId st)).take n) := by
    refine ⟨by rw [List.length_take, List.length_ofFn]; show _ = max n 1; omega, fun k f hf => ?_⟩
    rw [List.getElem?_take] at hf
    split at hf
    · rw [List.getElem?_ofFn] at hf
      split at hf
      · rename_i hkP
        cases hf
        have := hh.sub ⟨k, hkP⟩
        rw [openFile]
        simp only [if_neg (show ¬ i < 0 by omega), ne_eq, show ¬ n = 0 by omega, not_false_eq_true, if_true]
        rw [this]
      · cases hf
    · cases hf
  rw [loadSubhalos_ok hf, List.flatMap_def, List.map_flatten, List.map_take, List.map_take, List.map_ofFn, List.map_ofFn]
  rfl

/-! ## Exclusive particles -/

/-- Python's `sort` by number of particles, which is stable. -/
def MassSort (sort : List (Nat × List Int) → List (Nat × List Int)) : Prop :=
  ∀ l, (sort l).Perm l ∧ (l.Pairwise (fun a b => a.1 < b.1) →
    (sort l).Pairwise (fun a b => a.2.length < b.2.length ∨ a.2.length = b.2.length ∧ a.1 < b.1))

/-- Python's `sort` by position. -/
def IdSort (sort : List (Nat × List Int) → List (Nat × List Int)) : Prop :=
  ∀ l, (sort l).Perm l ∧ (sort l).Pairwise (fun a b => a.1 ≤ b.1)

/-- The list of the elements of a set, in some order. -/
def Distinct (toList : List Int → List Int) : Prop := ∀ l, (toList l).Nodup ∧ ∀ x, x ∈ toList l ↔ x ∈ l

theorem exclusiveLoop_fst (toList : List Int → List Int) : ∀ (l : List (Nat × List Int)) (repo : List Int),
    (exclusiveLoop toList repo l).map Prod.fst = l.map Prod.fst
  | [], _ => rfl
  | (i, p) :: rest, repo => by
    rw [exclusiveLoop]
    split_ifs
    · rw [List.map_cons, List.map_cons, exclusiveLoop_fst toList rest]
    · rw [List.map_cons, List.map_cons, exclusiveLoop_fst toList rest]

theorem exclusiveLoop_get {toList : List Int → List Int} (ht : Distinct toList) : ∀ (l : List (Nat × List Int)) (repo : List Int) (k : Nat)
    (i : Nat) (p : List Int), l[k]? = some (i, p) → ∃ q, (exclusiveLoop toList repo l)[k]? = some (i, q) ∧ (p.length ≤ 1 → q = p) ∧
      (1 < p.length → q.Nodup ∧ ∀ x, x ∈ q ↔ x ∈ p ∧ x ∉ repo ∧
        ∀ (k' : Nat) (y : Nat × List Int), k' < k → l[k']? = some y → 1 < y.2.length → x ∉ y.2)
  | [], _, k, _, _, h => by simp at h
  | (i0, p0) :: rest, repo, 0, i, p, h => by
    rw [List.getElem?_cons_zero] at h
    cases h
    rw [exclusiveLoop]
    split_ifs with hp
    · refine ⟨_, rfl, fun h => by omega, fun _ => ⟨(ht _).1, fun x => ?_⟩⟩
      rw [(ht _).2, List.mem_filter]
      simp
    · exact ⟨_, rfl, fun _ => rfl, fun h => absurd h hp⟩
  | (i0, p0) :: rest, repo, k + 1, i, p, h => by
    rw [List.getElem?_cons_succ] at h
    rw [exclusiveLoop]
    split_ifs with hp
    · obtain ⟨q, h1, h2, h3⟩ := exclusiveLoop_get ht rest (repo ++ p0.filter (fun x => !repo.contains x)) k i p h
      refine ⟨q, by rw [List.getElem?_cons_succ]; exact h1, h2, fun hl => ⟨(h3 hl).1, fun x => ?_⟩⟩
      rw [(h3 hl).2]
      constructor
      · rintro ⟨a, b, c⟩
        have hr : x ∉ repo := fun hx => b (List.mem_append.2 (.inl hx))
        refine ⟨a, hr, fun k' y hk' hy hy1 => ?_⟩
        cases k' with
        | zero =>
          cases hy
          intro hx
          exact b (List.mem_append.2 (.inr (List.mem_filter.2 ⟨hx, by simpa using hr⟩)))
        | succ k' => exact c k' y (by omega) hy hy1
      · rintro ⟨a, b, c⟩
        refine ⟨a, fun hx => ?_, fun k' y hk' hy hy1 => c (k' + 1) y (by omega) hy hy1⟩
        rcases List.mem_append.1 hx with hx | hx
        · exact b hx
        · exact c 0 (i0, p0) (by omega) rfl hp (List.mem_filter.1 hx).1
    · obtain ⟨q, h1, h2, h3⟩ := exclusiveLoop_get ht rest repo k i p h
      refine ⟨q, by rw [List.getElem?_cons_succ]; exact h1, h2, fun hl => ⟨(h3 hl).1, fun x => ?_⟩⟩
      rw [(h3 hl).2]
      constructor
      · rintro ⟨a, b, c⟩
        refine ⟨a, b, fun k' y hk' hy hy1 => ?_⟩
        cases k' with
        | zero => cases hy; exact absurd hy1 hp
        | succ k' => exact c k' y (by omega) hy hy1
      · rintro ⟨a, b, c⟩
        exact ⟨a, b, fun k' y hk' hy hy1 => c (k' + 1) y (by omega) hy hy1⟩

theorem numbered_pairs (parts : List (List Int)) (i : Nat) (p : List Int) :
    (i, p) ∈ parts.zipIdx.map Prod.swap ↔ parts[i]? = some p := by
  rw [List.mem_map]
  constructor
  · rintro ⟨⟨a, b⟩, h1, h2⟩
    cases h2
    exact List.mem_zipIdx_iff_getElem?.1 h1
  · intro h
    exact ⟨(p, i), List.mem_zipIdx_iff_getElem?.2 h, rfl⟩

theorem numbered_fst (parts : List (List Int)) : (parts.zipIdx.map Prod.swap).map Prod.fst = List.range parts.length := by
  rw [List.map_map]
  show parts.zipIdx.map (fun x => x.2) = _
  refine List.ext_getElem (by simp) fun k a b => ?_
  simp

/-- **C69.** The particles are shared out as specified: each goes to the smallest of the subhaloes that have it. -/
theorem C69_exclusive {sortMass sortId : List (Nat × List Int) → List (Nat × List Int)} {toList : List Int → List Int}
    (hm : MassSort sortMass) (hi : IdSort sortId) (ht : Distinct toList) (parts : List (List Int)) :
    SharedOut parts (exclusiveParticles sortMass sortId toList parts) := by
  obtain ⟨L, hL⟩ : ∃ L, L = sortMass (parts.zipIdx.map Prod.swap) := ⟨_, rfl⟩
  obtain ⟨M, hM⟩ : ∃ M, M = exclusiveLoop toList [] L := ⟨_, rfl⟩
  have hperm : L.Perm (parts.zipIdx.map Prod.swap) := hL ▸ (hm _).1
  have hsort := hL ▸ (hm (parts.zipIdx.map Prod.swap)).2 (by
    have := List.pairwise_lt_range (n := parts.length)
    rw [← numbered_fst, List.pairwise_map] at this
    exact this)
  have hfst : (M.map Prod.fst).Perm (List.range parts.length) := by
    rw [hM, exclusiveLoop_fst, ← numbered_fst]
    exact hperm.map _
  obtain ⟨S, hS⟩ : ∃ S, S = sortId M := ⟨_, rfl⟩
  have hSp : S.Perm M := hS ▸ (hi M).1
  have hSf : S.map Prod.fst = List.range parts.length := by
    refine ((hSp.map Prod.fst).trans hfst).eq_of_pairwise (le := fun a b => a ≤ b) (fun a b _ _ h1 h2 => le_antisymm h1 h2) ?_ ?_
    · rw [List.pairwise_map]; exact hS ▸ (hi M).2
    · exact List.pairwise_lt_range.imp (fun h => h.le)
  have hout : exclusiveParticles sortMass sortId toList parts = S.map Prod.snd := by rw [exclusiveParticles, hS, hM, hL]
  have hlen : S.length = parts.length := by simpa using congrArg List.length hSf
  have hat : ∀ (i : Nat) (q : List Int), (i, q) ∈ M → (S.map Prod.snd)[i]? = some q := by
    intro i q hq
    obtain ⟨k, hk⟩ := List.getElem?_of_mem (hSp.mem_iff.2 hq)
    have h1 : (S.map Prod.fst)[k]? = some i := by rw [List.getElem?_map, hk]; rfl
    obtain ⟨hkl, _⟩ := List.getElem?_eq_some_iff.1 hk
    rw [hSf, List.getElem?_range (by omega)] at h1
    cases h1
    rw [List.getElem?_map, hk]; rfl
  have hpos : ∀ (i : Nat) (p : List Int), parts[i]? = some p → ∃ k, L[k]? = some (i, p) := fun i p h =>
    List.getElem?_of_mem (hperm.mem_iff.2 ((numbered_pairs parts i p).2 h))
  have hback : ∀ (k : Nat) (y : Nat × List Int), L[k]? = some y → parts[y.1]? = some y.2 := fun k y h =>
    (numbered_pairs parts y.1 y.2).1 (hperm.mem_iff.1 (List.mem_of_getElem? h))
  rw [hout]
  refine ⟨by rw [List.length_map, hlen], fun i p hp hp1 => ?_, fun i p hp hp1 => ?_⟩
  · obtain ⟨k, hk⟩ := hpos i p hp
    obtain ⟨q, h1, h2, _⟩ := exclusiveLoop_get ht L [] k i p hk
    rw [← hM] at h1
    rw [← h2 hp1]
    exact hat i q (List.mem_of_getElem? h1)
  · obtain ⟨k, hk⟩ := hpos i p hp
    obtain ⟨q, h1, _, h3⟩ := exclusiveLoop_get ht L [] k i p hk
    rw [← hM] at h1
    refine ⟨q, hat i q (List.mem_of_getElem? h1), (h3 hp1).1, fun x => ?_⟩
    rw [(h3 hp1).2]
    obtain ⟨hkl, hke⟩ := List.getElem?_eq_some_iff.1 hk
    constructor
    · rintro ⟨a, _, c⟩
      refine ⟨a, fun j p' hb hj => ?_⟩
      obtain ⟨p1, q1, b1, b2, b3, b4⟩ := hb
      rw [hj] at b1; rw [hp] at b2
      cases b1; cases b2
      obtain ⟨k', hk'⟩ := hpos j p' hj
      obtain ⟨hkl', hke'⟩ := List.getElem?_eq_some_iff.1 hk'
      refine c k' (j, p') ?_ hk' b3
      by_contra hlt
      rcases Nat.lt_or_eq_of_le (not_lt.1 hlt) with hlt | heq
      · have := List.pairwise_iff_getElem.1 hsort k k' hkl hkl' hlt
        rw [hke, hke'] at this
        simp only at this
        omega
      · subst heq
        rw [hke] at hke'
        cases hke'
        omega
    · rintro ⟨a, c⟩
      refine ⟨a, by simp, fun k' y hlt hy hy1 => ?_⟩
      obtain ⟨hkl', hke'⟩ := List.getElem?_eq_some_iff.1 hy
      have := List.pairwise_iff_getElem.1 hsort k' k hkl' hkl hlt
      rw [hke, hke'] at this
      exact c y.1 y.2 ⟨y.2, p, hback k' y hy, hp, hy1, this⟩ (hback k' y hy)

/-- **C69.** Subhaloes with more than one particle share none after that, and nothing is lost. -/
theorem C69_exclusive_partition {parts out : List (List Int)} (h : SharedOut parts out) :
    (∀ (i j : Nat) (p p' q q' : List Int), i ≠ j → parts[i]? = some p → parts[j]? = some p' → 1 < p.length → 1 < p'.length →
      out[i]? = some q → out[j]? = some q' → ∀ x ∈ q, x ∉ q') ∧
    ∀ (i : Nat) (p : List Int), parts[i]? = some p → ∀ x ∈ p, ∃ (j : Nat) (q : List Int), out[j]? = some q ∧ x ∈ q := by
  constructor
  · have key : ∀ (i j : Nat) (p p' q q' : List Int), Before parts i j → parts[i]? = some p → parts[j]? = some p' → 1 < p.length → 1 < p'.length →
      out[i]? = some q → out[j]? = some q' → ∀ x ∈ q, x ∉ q' := by
      intro i j p p' q q' hb hp hp' h1 h1' hq hq' x hx hx'
      obtain ⟨a, ha, _, hm⟩ := h.large i p hp h1
      obtain ⟨b, hb', _, hm'⟩ := h.large j p' hp' h1'
      rw [ha] at hq; rw [hb'] at hq'
      cases hq; cases hq'
      exact ((hm' x).1 hx').2 i p hb hp ((hm x).1 hx).1
    intro i j p p' q q' hij hp hp' h1 h1' hq hq' x hx hx'
    rcases lt_trichotomy p.length p'.length with hl | hl | hl
    · exact key i j p p' q q' ⟨p, p', hp, hp', h1, .inl hl⟩ hp hp' h1 h1' hq hq' x hx hx'
    · rcases Nat.lt_or_gt_of_ne hij with hlt | hlt
      · exact key i j p p' q q' ⟨p, p', hp, hp', h1, .inr ⟨hl, hlt⟩⟩ hp hp' h1 h1' hq hq' x hx hx'
      · exact key j i p' p q' q ⟨p', p, hp', hp, h1', .inr ⟨hl.symm, hlt⟩⟩ hp' hp h1' h1 hq' hq x hx' hx
    · exact key j i p' p q' q ⟨p', p, hp', hp, h1', .inl hl⟩ hp' hp h1' h1 hq' hq x hx' hx
  · have key : ∀ (n : Nat) (i : Nat) (p : List Int), parts[i]? = some p → 1 < p.length → p.length * (parts.length + 1) + i ≤ n → ∀ x ∈ p,
        ∃ (j : Nat) (q : List Int), out[j]? = some q ∧ x ∈ q := by
      intro n
      induction n using Nat.strong_induction_on with
      | _ n ih =>
        intro i p hp h1 hn x hx
        obtain ⟨q, hq, _, hm⟩ := h.large i p hp h1
        by_cases hxq : x ∈ q
        · exact ⟨i, q, hq, hxq⟩
        · have : ¬ ∀ j p', Before parts j i → parts[j]? = some p' → x ∉ p' := fun hc => hxq ((hm x).2 ⟨hx, hc⟩)
          push Not at this
          obtain ⟨j, p', hb, hj, hxp⟩ := this
          obtain ⟨p1, q1, b1, b2, b3, b4⟩ := hb
          rw [hj] at b1; rw [hp] at b2
          cases b1; cases b2
          obtain ⟨hjl, _⟩ := List.getElem?_eq_some_iff.1 hj
          have hlt : p'.length * (parts.length + 1) + j < p.length * (parts.length + 1) + i := by
            rcases b4 with hl | ⟨hl, hlt⟩
            · have : (p'.length + 1) * (parts.length + 1) ≤ p.length * (parts.length + 1) := Nat.mul_le_mul_right _ hl
              have e : (p'.length + 1) * (parts.length + 1) = p'.length * (parts.length + 1) + (parts.length + 1) := by ring
              omega
            · rw [hl]; omega
          exact ih _ (lt_of_lt_of_le hlt hn) j p' hj b3 le_rfl x hxp
    intro i p hp x hx
    by_cases h1 : 1 < p.length
    · exact key _ i p hp h1 le_rfl x hx
    · exact ⟨i, p, h.small i p hp (by omega), hx⟩

end HBT.Props
