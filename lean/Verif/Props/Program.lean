import Verif.Model.Program
import Verif.Props.Main
import Verif.Props.ConfigSync
import Verif.Props.SnapNumber
/-!
# C71: the program from its command line on
-/
set_option linter.unusedSectionVars false
namespace HBT.Props
open HBT HBT.Model HBT.Spec HBT.MainLoop
variable {K D E S R : Type}

/-! ## The arguments -/

/-- A number followed by something that is not a digit is read as that number. -/
theorem atoi_number {v : Int} (hv : InRange 32 v) {rest : List Char} (hr : ∀ x ∈ rest.head?, 10 ≤ hexVal x) : atoi (decimal v ++ rest) = .ok v := by
  have hhex := toDigits_hex (b := 10) (by decide) (by decide) v.natAbs
  have hne : Nat.toDigits 10 v.natAbs ≠ [] := Nat.toDigits_ne_nil
  have hsp : ∀ x : Char, hexVal x < 10 ∨ x = '-' → isSpace x = false := by
    rintro x (hx | rfl)
    · unfold isSpace
      simp only [Bool.or_eq_false_iff, beq_eq_false_iff_ne]
      refine ⟨⟨⟨⟨⟨?_, ?_⟩, ?_⟩, ?_⟩, ?_⟩, ?_⟩ <;> rintro rfl <;> exact absurd hx (by decide)
    · rfl
  have hd : (decimal v ++ rest).dropWhile isSpace = decimal v ++ rest := by
    rw [decimal_eq]
    unfold signed
    split_ifs
    · rw [List.cons_append, List.dropWhile_cons_of_neg (by rw [hsp _ (Or.inr rfl)]; simp)]
    · cases h : Nat.toDigits 10 v.natAbs with
      | nil => exact absurd h hne
      | cons x l =>
        rw [List.cons_append, List.dropWhile_cons_of_neg (by rw [hsp _ (Or.inl (hhex x (by rw [h]; simp)))]; simp)]
  have hs : splitSign (decimal v ++ rest) = (decide (v < 0), Nat.toDigits 10 v.natAbs ++ rest) := by
    rw [decimal_eq]
    unfold signed
    split_ifs with h0
    · simp [splitSign, h0]
    · rw [splitSign_digit]
      · simp [h0]
      · intro c hc
        cases hd : Nat.toDigits 10 v.natAbs with
        | nil => exact absurd hd hne
        | cons x l =>
          rw [hd, List.cons_append, List.head?_cons, Option.mem_def, Option.some.injEq] at hc
          have := hhex x (by rw [hd]; simp)
          rw [← hc]
          omega
  have ht : (Nat.toDigits 10 v.natAbs ++ rest).takeWhile (fun c => decide (hexVal c < 10)) = Nat.toDigits 10 v.natAbs := by
    rw [List.takeWhile_append_of_pos (fun x hx => decide_eq_true (hhex x hx))]
    cases rest with
    | nil => simp
    | cons x l =>
      rw [List.takeWhile_cons_of_neg (by have := hr x (by simp); simpa using this), List.append_nil]
  unfold atoi
  simp only
  rw [hd, hs]
  simp only
  rw [ht, digitsVal_toDigits (by decide) (by decide)]
  have hw : (if decide (v < 0) = true then -((v.natAbs : Nat) : Int) else ((v.natAbs : Nat) : Int)) = v := by
    by_cases h0 : v < 0
    · rw [if_pos (by simpa using h0)]; omega
    · rw [if_neg (by simpa using h0)]; omega
  rw [hw, if_neg]
  obtain ⟨h1, h2⟩ := hv
  norm_num at h1 h2 ⊢
  omega

theorem atoi_decimal {v : Int} (hv : InRange 32 v) : atoi (decimal v) = .ok v := by
  have := atoi_number hv (rest := []) (by simp)
  rwa [List.append_nil] at this

/-- A text without digits is read as 0. -/
theorem atoi_text {t : List Char} (ht : ∀ x ∈ t, 10 ≤ hexVal x) : atoi t = .ok 0 := by
  have h1 : ∀ x ∈ t.dropWhile isSpace, 10 ≤ hexVal x := fun x hx => ht x ((List.dropWhile_sublist _).mem hx)
  have h2 : ∀ l : List Char, (∀ x ∈ l, 10 ≤ hexVal x) → ∀ x ∈ (splitSign l).2, 10 ≤ hexVal x := by
    intro l hl
    unfold splitSign
    split
    · exact fun x hx => hl x (List.mem_cons_of_mem _ hx)
    · exact fun x hx => hl x (List.mem_cons_of_mem _ hx)
    · exact hl
  have h3 : (splitSign (t.dropWhile isSpace)).2.takeWhile (fun c => decide (hexVal c < 10)) = [] := by
    have := h2 _ h1
    cases h : (splitSign (t.dropWhile isSpace)).2 with
    | nil => rfl
    | cons x l =>
      rw [List.takeWhile_cons_of_neg]
      have := this x (by rw [h]; simp)
      simpa using this
  unfold atoi
  simp only
  rw [h3]
  simp [digitsVal]

/-! ## Sessions -/

/-- What is assumed of a start of the program with parameter file `name`: it can be parsed, with result `c`; the texts in it are
shorter than 2^31-1 characters; `MaxSnapshotIndex` is less than 2^31-1; the parameters make sense (`BuildOk`); particles persist; and for each snapshot between `MinSnapshotIndex`
and `MaxSnapshotIndex` the readers give sensible inputs and each process writes its files. -/
structure Setting [LinearOrder K] [MassSum K] [Mul K] [LinearOrder E] [Zero E] {P : Nat} [NeZero P] (wide : Nat) (readReal : List Char → ℚ → ℚ)
    (env : Surroundings) (c0 : Fin P → HBT.Params ℚ) (real : ℚ → K) (fixed : Build K D S)
    (input : Int → SnapInput K D E S R P × List (WriteOp P)) (name : List Char) (c : HBT.Params ℚ) (sim : Int → List Int) : Prop where
  parsed : ∃ lines, env.file name = some lines ∧ parseConfig wide readReal env.list (c0 0) lines = .ok c
  send : Sendable c
  last : c.maxSnapshotIndex < (2 : Int) ^ 31 - 1
  build : BuildOk (buildOf real fixed c)
  sim_ : Persistent (buildOf real fixed c) sim
  inputs : ∀ i, c.minSnapshotIndex ≤ i → i ≤ c.maxSnapshotIndex → SnapInputOk (buildOf real fixed c) (sim i) (inputAt input i).1
  ops : ∀ i r, .sub r ∈ (input i).2 ∧ .src r ∈ (input i).2

/-- The conditions on the parameters: at least two particles, `BoundMassPrecision` at most 1 (see `stops_exact`, `C75_stops`),
`SourceSubRelaxFactor` at least 1 (see `keeps_exact`; with rounding a little more, see `C75_keeps`), `MinSnapshotIndex` not negative. -/
theorem buildOf_ok [LE K] {real : ℚ → K} {fixed : Build K D S} (h : BuildOk fixed) {c : HBT.Params ℚ} (h1 : 2 ≤ c.minNumPartOfSub)
    (h2 : Stops fixed.cfg.fl c.boundMassPrecision) (h3 : Keeps fixed.cfg.fl c.sourceSubRelaxFactor) (h4 : 0 ≤ c.minSnapshotIndex) : BuildOk (buildOf real fixed c) :=
  ⟨h.chunk, h.nestChunk, h.ids, h.tagged, h.ranks, h.keys, h.search, h.mass, h.average, h.cell, h2, by show 2 ≤ c.minNumPartOfSub.toNat; omega, h3, h4⟩

/-- The inputs of `n` snapshots from `i` on. -/
def inputsFrom {P : Nat} (input : Int → SnapInput K D E S R P × List (WriteOp P)) : Nat → Int → List (SnapInput K D E S R P × List (WriteOp P))
  | 0, _ => []
  | n + 1, i => inputAt input i :: inputsFrom input n (i + 1)

theorem inputsFrom_length {P : Nat} (input : Int → SnapInput K D E S R P × List (WriteOp P)) : ∀ n i, (inputsFrom input n i).length = n
  | 0, _ => rfl
  | n + 1, i => by rw [inputsFrom, List.length_cons, inputsFrom_length]

theorem inputsFrom_add {P : Nat} (input : Int → SnapInput K D E S R P × List (WriteOp P)) (m : Nat) :
    ∀ n i, inputsFrom input (n + m) i = inputsFrom input n i ++ inputsFrom input m (i + n)
  | 0, i => by simp [inputsFrom]
  | n + 1, i => by
    rw [show n + 1 + m = (n + m) + 1 by omega, inputsFrom, inputsFrom_add input m n, inputsFrom, List.cons_append]
    congr 3
    push_cast
    omega

theorem mem_inputsFrom {P : Nat} (input : Int → SnapInput K D E S R P × List (WriteOp P)) : ∀ n i x, x ∈ inputsFrom input n i →
    ∃ j, i ≤ j ∧ j < i + n ∧ x = inputAt input j
  | 0, _, x, hx => by cases hx
  | n + 1, i, x, hx => by
    rcases List.mem_cons.1 hx with rfl | hx
    · exact ⟨i, le_refl i, by omega, rfl⟩
    · obtain ⟨j, h1, h2, h3⟩ := mem_inputsFrom input n (i + 1) x hx
      exact ⟨j, by omega, by omega, h3⟩

section
variable [LinearOrder K] [MassSum K] [Mul K] [LinearOrder R] [LinearOrder E] [Zero E] {P : Nat} [NeZero P] {wide : Nat}
  {readReal : List Char → ℚ → ℚ} {printReal : ℚ → List Char} {version : List Char} {env : Surroundings} {c0 : Fin P → HBT.Params ℚ} {real : ℚ → K}
  {fixed : Build K D S} {input : Int → SnapInput K D E S R P × List (WriteOp P)} {name : List Char} {c : HBT.Params ℚ} {sim : Int → List Int}

theorem Setting.index (h : Setting wide readReal env c0 real fixed input name c sim) {i : Int} (h1 : c.minSnapshotIndex ≤ i)
    (h2 : i ≤ c.maxSnapshotIndex) : ∃ s, setSnapshotIndex c i = .ok s := by
  obtain ⟨lines, _, hc⟩ := h.parsed
  obtain ⟨id, e, _⟩ := C46_accepted hc h.build.minIndex h1 h2
  exact ⟨_, e⟩

theorem Setting.consecutive (h : Setting wide readReal env c0 real fixed input name c sim) : ∀ (n : Nat) (i : Int), c.minSnapshotIndex ≤ i →
    i + n ≤ c.maxSnapshotIndex + 1 → Consecutive (buildOf real fixed c) sim i (inputsFrom input n i)
  | 0, i, _, _ => .nil i
  | n + 1, i, h1, h2 => .cons rfl (h.inputs i h1 (by omega)) (h.ops i) (h.consecutive n (i + 1) (by omega) (by omega))

theorem Setting.mainLoop_eq (h : Setting wide readReal env c0 real fixed input name c sim) : ∀ (n : Nat) (i : Int) (st : Fin P → List (Sub K D)) (disks : Int → Disk K D), c.minSnapshotIndex ≤ i →
    i + n ≤ c.maxSnapshotIndex + 1 → mainLoop (buildOf real fixed c) c input n i st disks = session (buildOf real fixed c) (inputsFrom input n i) st disks
  | 0, i, st, disks, _, _ => rfl
  | n + 1, i, st, disks, h1, h2 => by
    obtain ⟨s, e⟩ := h.index h1 (by omega)
    rw [mainLoop, e, Outcome.bind_ok, inputsFrom, session]
    congr 1
    funext y
    have := h.last
    rw [if_neg (by omega)]
    exact h.mainLoop_eq n (i + 1) _ _ (by omega) (by omega)

theorem session_elsewhere {b : Build K D S} : ∀ (n : Nat) (i : Int) (st st' : Fin P → List (Sub K D)) (disks disks' : Int → Disk K D),
    session b (inputsFrom input n i) st disks = .ok (st', disks') → ∀ j, j < i ∨ i + n ≤ j → disks' j = disks j
  | 0, i, st, st', disks, disks', e, j, _ => by
    cases e
    rfl
  | n + 1, i, st, st', disks, disks', e, j, hj => by
    rw [inputsFrom, session] at e
    obtain ⟨y, e1, e2⟩ := bind_eq_ok e
    rw [takeSnapshot] at e1
    obtain ⟨out, _, e1⟩ := bind_eq_ok e1
    obtain ⟨d, _, e1⟩ := bind_eq_ok e1
    cases e1
    rw [session_elsewhere n (i + 1) _ _ _ _ e2 j (by omega)]
    show (if j = i then d else disks j) = disks j
    rw [if_neg (by omega)]

/-- The program, after its arguments are read. -/
theorem Setting.program_eq (h : Setting wide readReal env c0 real fixed input name c sim) {args : List (List Char)} {first last : Int}
    (ha : parseHBTParams wide readReal env (c0 0) (name :: args) = .ok (c, first, last)) (disks : Int → Disk K D) :
    program wide readReal printReal version env c0 real fixed input (name :: args) disks = (do
      let st ← loadBefore P (buildOf real fixed c) c first disks
      let y ← mainLoop (buildOf real fixed c) c input (last + 1 - first).toNat first st disks
      .ok (y.2, dumpParameters printReal version c)) := by
  rw [program, ha, Outcome.bind_ok]
  simp only
  have hr : (fun r : Fin P => if r = 0 then c else c0 r) 0 = c := if_pos rfl
  rw [C52_broadcast (root := (0 : Fin P)) (st := fun r => if r = 0 then c else c0 r) (by show Sendable (if (0 : Fin P) = 0 then c else c0 0); rw [if_pos rfl]; exact h.send), Outcome.bind_ok]
  simp only [if_true]

theorem Setting.two (h : Setting wide readReal env c0 real fixed input name c sim) {a b : List Char} {first last : Int} (ha : atoi a = .ok first)
    (hb : atoi b = .ok last) (more : List (List Char)) :
    parseHBTParams wide readReal env (c0 0) (name :: a :: b :: more) = .ok (c, first, last) := by
  obtain ⟨lines, h1, h2⟩ := h.parsed
  rw [parseHBTParams]
  simp only
  rw [h1]
  simp only
  rw [h2, Outcome.bind_ok]
  rw [ha, Outcome.bind_ok, hb, Outcome.bind_ok]

/-- A session from the first to the last snapshot given. -/
theorem Setting.works (h : Setting wide readReal env c0 real fixed input name c sim) {disks : Int → Disk K D} {hist : List (Σ P, SnapInput K D E S R P)}
    (hr : Reach (buildOf real fixed c) sim disks hist) {n m : Nat} (hn : n ≤ hist.length) (hm : c.minSnapshotIndex + n + m ≤ c.maxSnapshotIndex + 1) (hm0 : 0 < m)
    {args : List (List Char)}
    (ha : parseHBTParams wide readReal env (c0 0) (name :: args) = .ok (c, c.minSnapshotIndex + n, c.minSnapshotIndex + n + m - 1)) :
    ∃ st st' disks', program wide readReal printReal version env c0 real fixed input (name :: args) disks = .ok (disks', dumpParameters printReal version c) ∧
      launch P (buildOf real fixed c) (c.minSnapshotIndex + n) disks = .ok st ∧
      session (buildOf real fixed c) (inputsFrom input m (c.minSnapshotIndex + n)) st disks = .ok (st', disks') ∧
      Reach (buildOf real fixed c) sim disks' (((inputsFrom input m (c.minSnapshotIndex + n)).reverse.map (fun x => (⟨P, x.1⟩ : Σ P, SnapInput K D E S R P))) ++
        hist.drop (hist.length - n)) := by
  have hP : 0 < P := Nat.pos_of_ne_zero (NeZero.ne P)
  have hx := h.consecutive m (c.minSnapshotIndex + n) (by omega) (by omega)
  have hmin := h.build.minIndex
  have e0 : (buildOf real fixed c).minIndex = c.minSnapshotIndex := rfl
  rw [e0] at hmin
  obtain ⟨st, st', disks', e1, e2⟩ := C58_never_fails h.build h.sim_ hr hP hn hx
  have e1' : launch P (buildOf real fixed c) (c.minSnapshotIndex + n) disks = .ok st := e1
  refine ⟨st, st', disks', ?_, e1', e2, ?_⟩
  · rw [h.program_eq ha]
    have hl : loadBefore P (buildOf real fixed c) c (c.minSnapshotIndex + n) disks = .ok st := by
      rw [loadBefore, if_neg (by norm_num; omega)]
      split_ifs with h1
      · exact e1'
      · obtain ⟨s, e⟩ := h.index (i := c.minSnapshotIndex + n - 1) (by omega) (by omega)
        rw [e, Outcome.bind_ok, e1']
    rw [hl, Outcome.bind_ok, show (c.minSnapshotIndex + (n : Int) + m - 1 + 1 - (c.minSnapshotIndex + n)).toNat = m by omega,
      h.mainLoop_eq m _ _ _ (by omega) (by omega), e2, Outcome.bind_ok]
  · have := Reach.session hr hP hn hx e1 e2 (disks' ((buildOf real fixed c).minIndex + n + (inputsFrom input m (c.minSnapshotIndex + n)).length))
    convert this using 1
    funext i
    split_ifs with hi
    · rw [hi]
    · rfl

/-- C71. `HBT name s e` with `MinSnapshotIndex ≤ s ≤ e ≤ MaxSnapshotIndex`, started when all snapshots before `s` are complete (or `s` is the first):
it does not fail, processes exactly the snapshots from `s` to `e`, with their inputs, leaves the catalogues of all others as they are,
and then all snapshots from the first to `e` are complete (in the sense of C58). It records the parameters. -/
theorem C71_range (h : Setting wide readReal env c0 real fixed input name c sim) {disks : Int → Disk K D} {hist : List (Σ P, SnapInput K D E S R P)}
    (hr : Reach (buildOf real fixed c) sim disks hist) {s e : Int} (hs : c.minSnapshotIndex ≤ s) (hs' : s ≤ c.minSnapshotIndex + hist.length)
    (hse : s ≤ e) (he : e ≤ c.maxSnapshotIndex) (rs : InRange 32 s) (re : InRange 32 e) :
    ∃ disks' hist', program wide readReal printReal version env c0 real fixed input [name, decimal s, decimal e] disks
        = .ok (disks', dumpParameters printReal version c) ∧
      Reach (buildOf real fixed c) sim disks' hist' ∧ (hist'.length : Int) = e + 1 - c.minSnapshotIndex ∧
      (∀ x ∈ hist', (s ≤ x.2.snap ∧ x.2.snap ≤ e ∧ x = ⟨P, (inputAt input x.2.snap).1⟩) ∨ (x.2.snap < s ∧ x ∈ hist)) ∧
      (∀ i, c.minSnapshotIndex ≤ i → i ≤ e → ∃ x ∈ hist', x.2.snap = i) ∧
      (∀ i, i < s ∨ e < i → disks' i = disks i) := by
  obtain ⟨n, rfl⟩ : ∃ n : Nat, s = c.minSnapshotIndex + n := ⟨(s - c.minSnapshotIndex).toNat, by omega⟩
  obtain ⟨m, rfl⟩ : ∃ m : Nat, e = c.minSnapshotIndex + n + m := ⟨(e - (c.minSnapshotIndex + n)).toNat, by omega⟩
  have hm : c.minSnapshotIndex + n + (m + 1 : Nat) - 1 = c.minSnapshotIndex + n + m := by push_cast; omega
  obtain ⟨st, st', disks', e1, e2, e3, e4⟩ := h.works (printReal := printReal) (version := version) hr (n := n) (m := m + 1) (by omega) (by push_cast; omega) (by omega)
    (args := [decimal (c.minSnapshotIndex + n), decimal (c.minSnapshotIndex + n + m)])
    (by rw [hm]; exact h.two (atoi_decimal rs) (atoi_decimal re) [])
  refine ⟨disks', _, e1, e4, ?_, ?_, ?_, ?_⟩
  · rw [List.length_append, List.length_map, List.length_reverse, inputsFrom_length, List.length_drop]
    push_cast
    omega
  · intro x hx
    rcases List.mem_append.1 hx with hx | hx
    · obtain ⟨y, hy, rfl⟩ := List.mem_map.1 hx
      obtain ⟨j, j1, j2, rfl⟩ := mem_inputsFrom _ _ _ _ (List.mem_reverse.1 hy)
      have : (inputAt input j).1.snap = j := rfl
      refine Or.inl ⟨by rw [this]; exact j1, by rw [this]; push_cast at j2; omega, by rw [this]⟩
    · refine Or.inr ⟨?_, List.mem_of_mem_drop hx⟩
      obtain ⟨tr, ha⟩ := reach_archive h.build h.sim_ hr
      have := ((ha.numbered.drop (hist.length - n)).lt x hx).2
      rw [List.length_drop] at this
      have e0 : (buildOf real fixed c).minIndex = c.minSnapshotIndex := rfl
      rw [e0] at this
      omega
  · intro i h1 h2
    obtain ⟨tr, ha⟩ := reach_archive h.build h.sim_ e4
    generalize hg : (((inputsFrom input (m + 1) (c.minSnapshotIndex + n)).reverse.map (fun x => (⟨P, x.1⟩ : Σ P, SnapInput K D E S R P))) ++
      hist.drop (hist.length - n)) = g at ha
    have hlen : (g.length : Int) = c.minSnapshotIndex + n + m + 1 - c.minSnapshotIndex := by
      rw [← hg, List.length_append, List.length_map, List.length_reverse, inputsFrom_length, List.length_drop]
      push_cast
      omega
    have hnum := ha.numbered
    have e0 : (buildOf real fixed c).minIndex = c.minSnapshotIndex := rfl
    rw [e0] at hnum
    have key : ∀ (l : List (Σ P, SnapInput K D E S R P)), Numbered c.minSnapshotIndex l → i < c.minSnapshotIndex + l.length → ∃ x ∈ l, x.2.snap = i := by
      intro l
      induction l with
      | nil => intro _ h; simp at h; omega
      | cons y l ih =>
        intro hn hi
        by_cases hy : i = c.minSnapshotIndex + l.length
        · exact ⟨y, by simp, by rw [hn.1, hy]⟩
        · rw [List.length_cons] at hi
          push_cast at hi
          obtain ⟨x, hx, hx'⟩ := ih hn.2 (by omega)
          exact ⟨x, List.mem_cons_of_mem _ hx, hx'⟩
    exact key g hnum (by omega)
  · intro i hi
    exact session_elsewhere _ _ _ _ _ _ e3 i (by push_cast; omega)

/-- C71. Without numbers the program does what it does with `MinSnapshotIndex` and `MaxSnapshotIndex` (of the parameter file) as numbers. -/
theorem C71_default (h : Setting wide readReal env c0 real fixed input name c sim) (h1 : InRange 32 c.minSnapshotIndex)
    (h2 : InRange 32 c.maxSnapshotIndex) (disks : Int → Disk K D) :
    program wide readReal printReal version env c0 real fixed input [name] disks =
      program wide readReal printReal version env c0 real fixed input [name, decimal c.minSnapshotIndex, decimal c.maxSnapshotIndex] disks := by
  rw [h.program_eq (h.two (atoi_decimal h1) (atoi_decimal h2) []), h.program_eq]
  obtain ⟨lines, e1, e2⟩ := h.parsed
  rw [parseHBTParams]
  simp only
  rw [e1]
  simp only
  rw [e2, Outcome.bind_ok]

/-- C71. The parameter file alone: a run that does not fail, whatever was in the directory, and leaves for each snapshot from `MinSnapshotIndex`
to `MaxSnapshotIndex` a catalogue, which loads with any number of processes. In it the track ids are `0`, …, `N-1`; each track has
at least `MinNumPartOfSub` (of the parameter file) bound particles, or is an orphan with at most one particle; its particles are particles of this snapshot, and
its host is a group of this snapshot, or none. -/
theorem C71_whole_run (h : Setting wide readReal env c0 real fixed input name c sim) (h0 : c.minSnapshotIndex ≤ c.maxSnapshotIndex) (disks : Int → Disk K D) :
    ∃ disks', program wide readReal printReal version env c0 real fixed input [name] disks = .ok (disks', dumpParameters printReal version c) ∧
      ∀ i, c.minSnapshotIndex ≤ i → i ≤ c.maxSnapshotIndex → ∀ P', 0 < P' → ∃ id, ∃ ld : Fin P' → List (Sub K D),
        setSnapshotIndex c i = .ok ⟨i, id⟩ ∧ loadSubs P' .source fixed.blank c.minSnapshotIndex i id (disks' i) = .ok ld ∧
        (∃ N, ((everyone ld).map Sub.trackId).Perm ((List.range N).map (fun i : Nat => (i : Int)))) ∧
        ∀ s ∈ everyone ld,
          ((c.minNumPartOfSub ≤ s.nbound ∧ s.nbound ≤ s.particles.length) ∨ (s.nbound ≤ 1 ∧ s.particles.length = s.nbound)) ∧
          (∀ p ∈ s.particles, p.id ∈ sim i) ∧
          (s.hostHaloId = -1 ∨ ∃ r, ∃ g ∈ (input i).1.halos r, fixed.haloId g.shell = s.hostHaloId) := by
  have hmin : 0 ≤ c.minSnapshotIndex := h.build.minIndex
  have hlast := h.last
  have r1 : InRange 32 c.minSnapshotIndex := ⟨by norm_num; omega, by norm_num at hlast ⊢; omega⟩
  have r2 : InRange 32 c.maxSnapshotIndex := ⟨by norm_num; omega, by norm_num at hlast ⊢; omega⟩
  obtain ⟨disks', hist, e, hr, _, hh, hc, _⟩ := C71_range (printReal := printReal) (version := version) h (.start disks) (le_refl _) (by simp) h0 (le_refl _) r1 r2
  refine ⟨disks', by rw [C71_default h r1 r2]; exact e, fun i i1 i2 P' hP' => ?_⟩
  obtain ⟨x, hx, rfl⟩ := hc i i1 i2
  obtain ⟨ld, l1, l2, l3⟩ := C58_catalogue h.build h.sim_ hr hx hP'
  obtain ⟨lines, _, hp⟩ := h.parsed
  obtain ⟨id, e2, _⟩ := C46_accepted hp hmin i1 i2
  refine ⟨id, ld, e2, ?_, l2, fun s hs => ?_⟩
  · have : (buildOf real fixed c).snapId x.2.snap = id := by
      show (match setSnapshotIndex c x.2.snap with | .ok s => s.id | _ => nullSnap) = id
      rw [e2]
    rw [this] at l1
    exact l1
  · obtain ⟨t1, t2, t3⟩ := l3 s hs
    refine ⟨?_, t2, ?_⟩
    · refine t1.imp (fun t => ⟨?_, t.2⟩) (fun q => q)
      have t : c.minNumPartOfSub.toNat ≤ s.nbound := t.1
      omega
    · rcases hh x hx with ⟨_, _, hq⟩ | ⟨_, hq⟩
      · refine t3.imp (fun q => q) ?_
        rw [hq]
        exact fun q => q
      · cases hq

/-- C71. The run uses the values of the parameter file (as C45 reads it): in the places where the main loop depends on the configuration
it has the value of the parameter of this name. -/
theorem C71_parameters (real : ℚ → K) (fixed : Build K D S) (c : HBT.Params ℚ) (h : 0 ≤ c.minNumPartOfSub) (h' : 0 ≤ c.maxSampleSizeOfPotentialEstimate) :
    let b := buildOf real fixed c
    b.needHash = c.particleIdNeedHash ∧ b.fullGroups = c.groupLoadedFullParticle ∧ b.ratio = real c.majorProgenitorMassRatio ∧
    b.cfg.minNum = c.minNumPartOfSub ∧ b.cfg.maxSample = c.maxSampleSizeOfPotentialEstimate ∧ b.cfg.refine = c.refineMostboundParticle ∧
    b.cfg.prec = c.boundMassPrecision ∧ b.cfg.relax = c.sourceSubRelaxFactor ∧ b.cfg.fl = fixed.cfg.fl ∧ b.merging = c.mergeTrappedSubhalos ∧ b.minIndex = c.minSnapshotIndex :=
  ⟨rfl, rfl, rfl, Int.toNat_of_nonneg h, Int.toNat_of_nonneg h', rfl, rfl, rfl, rfl, rfl, rfl⟩

/-- C71. With one number it processes this snapshot only; arguments after the second number are ignored. -/
theorem C71_one_number (a : List Char) (disks : Int → Disk K D) :
    program wide readReal printReal version env c0 real fixed input [name, a] disks =
      program wide readReal printReal version env c0 real fixed input [name, a, a] disks := by
  have : parseHBTParams wide readReal env (c0 0) [name, a] = parseHBTParams wide readReal env (c0 0) [name, a, a] := by
    rw [parseHBTParams, parseHBTParams]
    simp only
    cases env.file name with
    | none => rfl
    | some lines =>
      simp only
      congr 1
      funext c
      cases h : atoi a <;> rfl
  rw [program, this, program]

theorem C71_more_arguments (a b : List Char) (more : List (List Char)) (disks : Int → Disk K D) :
    program wide readReal printReal version env c0 real fixed input (name :: a :: b :: more) disks =
      program wide readReal printReal version env c0 real fixed input [name, a, b] disks := rfl

/-- C71. Without arguments, or if the parameter file is not there, the program stops with an error. -/
theorem C71_usage (disks : Int → Disk K D) :
    program wide readReal printReal version env c0 real fixed input [] disks = .abort ∧
    (env.file name = none → ∀ args, program wide readReal printReal version env c0 real fixed input (name :: args) disks = .abort) := by
  refine ⟨rfl, fun hn args => ?_⟩
  have : parseHBTParams wide readReal env (c0 0) (name :: args) = .abort := by
    rw [parseHBTParams]
    rw [hn]
  rw [program, this]
  rfl

/-- C71. Two starts, from `s` to `m` and from `m+1` to `e`, write the files that one start from `s` to `e` writes. -/
theorem C71_split (h : Setting wide readReal env c0 real fixed input name c sim) {disks : Int → Disk K D} {hist : List (Σ P, SnapInput K D E S R P)}
    (hr : Reach (buildOf real fixed c) sim disks hist) {s m e : Int} (hs : c.minSnapshotIndex ≤ s) (hs' : s ≤ c.minSnapshotIndex + hist.length)
    (hsm : s ≤ m) (hme : m < e) (he : e ≤ c.maxSnapshotIndex) (rs : InRange 32 s) (re : InRange 32 e) :
    ∃ d1 d2 dF log, program wide readReal printReal version env c0 real fixed input [name, decimal s, decimal m] disks = .ok (d1, log) ∧
      program wide readReal printReal version env c0 real fixed input [name, decimal (m + 1), decimal e] d1 = .ok (d2, log) ∧
      program wide readReal printReal version env c0 real fixed input [name, decimal s, decimal e] disks = .ok (dF, log) ∧
      ∀ i, s ≤ i → i ≤ e → ∀ r < P, (d2 i).sub r = (dF i).sub r ∧ (d2 i).src r = (dF i).src r := by
  have hP : 0 < P := Nat.pos_of_ne_zero (NeZero.ne P)
  have rm : InRange 32 m := by obtain ⟨a1, a2⟩ := rs; obtain ⟨b1, b2⟩ := re; exact ⟨by omega, by omega⟩
  have rm1 : InRange 32 (m + 1) := by obtain ⟨a1, a2⟩ := rs; obtain ⟨b1, b2⟩ := re; exact ⟨by omega, by omega⟩
  obtain ⟨n, rfl⟩ : ∃ n : Nat, s = c.minSnapshotIndex + n := ⟨(s - c.minSnapshotIndex).toNat, by omega⟩
  obtain ⟨k, rfl⟩ : ∃ k : Nat, m = c.minSnapshotIndex + n + (k + 1 : Nat) - 1 := ⟨(m - (c.minSnapshotIndex + n)).toNat, by omega⟩
  obtain ⟨l, rfl⟩ : ∃ l : Nat, e = c.minSnapshotIndex + n + ((k + 1) + (l + 1) : Nat) - 1 := ⟨(e - (c.minSnapshotIndex + n + (k + 1 : Nat) - 1) - 1).toNat, by push_cast; omega⟩
  obtain ⟨st, st1, d1, p1, q1, q2, q3⟩ := h.works (printReal := printReal) (version := version) hr (n := n) (m := k + 1) (by omega) (by push_cast at *; omega) (by omega)
    (h.two (atoi_decimal rs) (atoi_decimal rm) [])
  obtain ⟨stF, stF', dF, p3, t1, t2, t3⟩ := h.works (printReal := printReal) (version := version) hr (n := n) (m := (k + 1) + (l + 1)) (by omega) (by push_cast at *; omega) (by omega)
    (h.two (atoi_decimal rs) (atoi_decimal re) [])
  rw [q1] at t1
  cases t1
  have hx := h.consecutive ((k + 1) + (l + 1)) (c.minSnapshotIndex + n) (by omega) (by push_cast at *; omega)
  rw [inputsFrom_add] at t2 hx
  have ea : parseHBTParams wide readReal env (c0 0) [name, decimal (c.minSnapshotIndex + n + (k + 1 : Nat) - 1 + 1),
      decimal (c.minSnapshotIndex + n + ((k + 1) + (l + 1) : Nat) - 1)] =
      .ok (c, c.minSnapshotIndex + (n + (k + 1) : Nat), c.minSnapshotIndex + (n + (k + 1) : Nat) + (l + 1 : Nat) - 1) := by
    rw [h.two (atoi_decimal rm1) (atoi_decimal re) []]
    congr 3 <;> push_cast <;> omega
  obtain ⟨st2, st2', d2, p2, u1, u2, u3⟩ := h.works (printReal := printReal) (version := version) q3 (n := n + (k + 1)) (m := l + 1)
    (by rw [List.length_append, List.length_map, List.length_reverse, inputsFrom_length, List.length_drop]; omega) (by push_cast at *; omega) (by omega) ea
  refine ⟨d1, d2, dF, _, p1, p2, p3, ?_⟩
  have hj : (fun i => if i = (buildOf real fixed c).minIndex + n + (inputsFrom input (k + 1) (c.minSnapshotIndex + n)).length
      then d1 ((buildOf real fixed c).minIndex + n + (inputsFrom input (k + 1) (c.minSnapshotIndex + n)).length) else d1 i) = d1 := by
    funext i
    split_ifs with hi
    · rw [hi]
    · rfl
  have ei : (buildOf real fixed c).minIndex + (n : Int) + (inputsFrom input (k + 1) (c.minSnapshotIndex + n)).length = c.minSnapshotIndex + (n + (k + 1) : Nat) := by
    rw [inputsFrom_length]
    show c.minSnapshotIndex + (n : Int) + (k + 1 : Nat) = _
    push_cast
    omega
  have ei2 : c.minSnapshotIndex + (n : Int) + (k + 1 : Nat) = c.minSnapshotIndex + (n + (k + 1) : Nat) := by push_cast; omega
  rw [ei2] at t2 hx
  have key := C59_restart h.build h.sim_ hr hP (n := n) (by omega) hx q1 t2 q2
    (d1 ((buildOf real fixed c).minIndex + n + (inputsFrom input (k + 1) (c.minSnapshotIndex + n)).length))
    (by rw [hj, ei]; exact u1) (by rw [hj]; exact u2)
  intro i i1 i2 r hrr
  refine key.1 i i1 ?_ r hrr
  show i < c.minSnapshotIndex + (n : Int) + _
  rw [List.length_append, inputsFrom_length, inputsFrom_length]
  omega

/-- C71. A first snapshot before `MinSnapshotIndex` is an error. -/
theorem C71_before_first (h : Setting wide readReal env c0 real fixed input name c sim) {s e : Int} (hs : s < c.minSnapshotIndex) (hse : s ≤ e)
    (rs : InRange 32 s) (re : InRange 32 e) (hi : s ≠ -(2 : Int) ^ 31) (disks : Int → Disk K D) :
    program wide readReal printReal version env c0 real fixed input [name, decimal s, decimal e] disks = .abort := by
  rw [h.program_eq (h.two (atoi_decimal rs) (atoi_decimal re) []), loadBefore, if_neg hi, if_pos (by omega), launch, loadSubs,
    if_pos (show s - 1 < (buildOf real fixed c).minIndex from (by omega : s - 1 < c.minSnapshotIndex)), Outcome.bind_ok]
  obtain ⟨k, hk⟩ : ∃ k, (e + 1 - s).toNat = k + 1 := ⟨(e - s).toNat, by omega⟩
  rw [hk, mainLoop, C46_rejected (Or.inl hs)]
  rfl

theorem mainLoop_last {b : Build K D S} : ∀ (n : Nat) (i : Int) (st : Fin P → List (Sub K D)) (disks : Int → Disk K D) y,
    mainLoop b c input n i st disks = .ok y → 0 < n → i + n ≤ c.maxSnapshotIndex + 1
  | 0, _, _, _, _, _, h0 => absurd h0 (by decide)
  | n + 1, i, st, disks, y, e, _ => by
    rw [mainLoop] at e
    obtain ⟨x, e1, e⟩ := bind_eq_ok e
    obtain ⟨z, _, e⟩ := bind_eq_ok e
    split_ifs at e
    by_cases hi : c.maxSnapshotIndex < i
    · rw [C46_rejected (Or.inr hi)] at e1
      cases e1
    · cases n with
      | zero => push_cast; omega
      | succ n =>
        have := mainLoop_last (n + 1) (i + 1) _ _ _ e (by omega)
        push_cast at this ⊢
        omega

/-- C71. A last snapshot after `MaxSnapshotIndex` is an error in the end: the program never finishes properly. -/
theorem C71_after_last (h : Setting wide readReal env c0 real fixed input name c sim) {s e : Int} (he : c.maxSnapshotIndex < e) (hse : s ≤ e)
    (rs : InRange 32 s) (re : InRange 32 e) (disks : Int → Disk K D) :
    ∀ y, program wide readReal printReal version env c0 real fixed input [name, decimal s, decimal e] disks ≠ .ok y := by
  intro y hy
  rw [h.program_eq (h.two (atoi_decimal rs) (atoi_decimal re) [])] at hy
  obtain ⟨st, _, hy⟩ := bind_eq_ok hy
  obtain ⟨z, hz, _⟩ := bind_eq_ok hy
  have := mainLoop_last _ _ _ _ _ hz (by omega)
  omega

/-- C71, a finding: what is not a number is taken for 0, without a message, and what follows a number is ignored. -/
theorem C71_not_a_number {t : List Char} (ht : ∀ x ∈ t, 10 ≤ hexVal x) (rest : List (List Char)) (disks : Int → Disk K D) :
    program wide readReal printReal version env c0 real fixed input (name :: t :: rest) disks =
      program wide readReal printReal version env c0 real fixed input (name :: decimal 0 :: rest) disks := by
  have e : atoi t = atoi (decimal 0) := by rw [atoi_text ht, atoi_decimal (by constructor <;> norm_num)]
  have : parseHBTParams wide readReal env (c0 0) (name :: t :: rest) = parseHBTParams wide readReal env (c0 0) (name :: decimal 0 :: rest) := by
    rw [parseHBTParams, parseHBTParams]
    cases env.file name with
    | none => rfl
    | some lines => cases rest <;> simp only [e]
  rw [program, this, program]

theorem C71_text_after_number {v : Int} (hv : InRange 32 v) {t : List Char} (ht : ∀ x ∈ t.head?, 10 ≤ hexVal x) (rest : List (List Char))
    (disks : Int → Disk K D) :
    program wide readReal printReal version env c0 real fixed input (name :: (decimal v ++ t) :: rest) disks =
      program wide readReal printReal version env c0 real fixed input (name :: decimal v :: rest) disks := by
  have e : atoi (decimal v ++ t) = atoi (decimal v) := by rw [atoi_number hv ht, atoi_decimal hv]
  have : parseHBTParams wide readReal env (c0 0) (name :: (decimal v ++ t) :: rest) = parseHBTParams wide readReal env (c0 0) (name :: decimal v :: rest) := by
    rw [parseHBTParams, parseHBTParams]
    cases env.file name with
    | none => rfl
    | some lines => cases rest <;> simp only [e]
  rw [program, this, program]

end
end HBT.Props
