import Verif.Model.Throttle
import Mathlib.Algebra.BigOperators.Fin
import Mathlib.Algebra.Order.BigOperators.Group.Finset
import Mathlib.Tactic.Ring
import Mathlib.Tactic.FinCases
/-!
# C36: concurrent input and output is throttled and cannot deadlock
-/
namespace HBT.Props
open HBT.Model HBT.Spec

/-- The number of barriers in a program. -/
def barriers (l : List Instr) : Nat := l.count .barrier

theorem barriers_append (a b : List Instr) : barriers (a ++ b) = barriers a + barriers b := List.count_append

theorem throttle_barriers (limit : Int) (r r' n i : Nat) (ir : Int) :
    barriers (throttleFrom limit r n i ir) = barriers (throttleFrom limit r' n i ir) := by
  induction n generalizing i ir with
  | zero => rfl
  | succ n ih =>
    simp only [throttleFrom, barriers_append, ih]
    congr 1
    congr 1
    split_ifs <;> rfl

/-- The program of `rank`: barriers, its input or output, barriers. -/
theorem throttle_none (limit : Int) (rank n i : Nat) (ir : Int) (h : rank < i ∨ i + n ≤ rank) :
    ∀ x ∈ throttleFrom limit rank n i ir, x = .barrier := by
  induction n generalizing i ir with
  | zero => intro x hx; cases hx
  | succ n ih =>
    intro x hx
    simp only [throttleFrom] at hx
    rw [if_neg (show i ≠ rank by omega), List.append_nil] at hx
    rcases List.mem_append.1 hx with hx | hx
    · split_ifs at hx
      · simpa using hx
      · cases hx
    · exact ih _ _ (by omega) x hx

/-- `ireader` at the beginning of iteration `i`. -/
def readerAt (L i : Nat) : Nat := if i = 0 then 0 else (i - 1) % L + 1

theorem readerAt_step (L i : Nat) (hL : 0 < L) :
    ((i - 1) / L + if readerAt L i = L then 1 else 0) = i / L ∧
    (if readerAt L i = L then 0 else readerAt L i) + 1 = readerAt L (i + 1) := by
  cases i with
  | zero =>
    have : ¬ 0 = L := by omega
    simp [readerAt, this]
  | succ k =>
    have e : readerAt L (k + 1) = k % L + 1 := by simp [readerAt]
    have e' : readerAt L (k + 1 + 1) = (k + 1) % L + 1 := by simp [readerAt]
    rw [e, e', Nat.add_sub_cancel]
    have hdm := Nat.div_add_mod k L
    have hlt := Nat.mod_lt k hL
    by_cases he : k % L + 1 = L
    · simp only [if_pos he]
      have hk : k + 1 = L * (k / L + 1) := by
        have : L * (k / L + 1) = L * (k / L) + L := by ring
        omega
      constructor
      · conv_rhs => rw [hk]
        rw [Nat.mul_div_cancel_left _ hL]
      · have : (k + 1) % L = 0 := by
          conv_lhs => rw [hk]
          exact Nat.mul_mod_right _ _
        rw [this]
    · simp only [if_neg he]
      have h1 : (k + 1) / L = k / L := by
        rw [Nat.div_eq_iff hL]
        have : k / L * L = L * (k / L) := Nat.mul_comm _ _
        constructor
        · omega
        · omega
      have h2 : (k + 1) % L = k % L + 1 := by
        have hdm' := Nat.div_add_mod (k + 1) L
        rw [h1] at hdm'
        omega
      constructor
      · omega
      · omega

theorem throttle_shape (limit : Int) (rank n i : Nat) (ir : Int) (h : i ≤ rank) (h' : rank < i + n) :
    ∃ pre post, throttleFrom limit rank n i ir = pre ++ .begin :: .finish :: post ∧ (∀ x ∈ pre, x = .barrier) ∧
      (∀ x ∈ post, x = .barrier) ∧
      ∀ L : Nat, limit = (L : Int) → 0 < L → ir = (readerAt L i : Int) →
        barriers pre + (i - 1) / L = rank / L := by
  induction n generalizing i ir with
  | zero => omega
  | succ n ih =>
    by_cases hr : i = rank
    · refine ⟨if ir = limit then [.barrier] else [], throttleFrom limit rank n (i + 1) ((if ir = limit then 0 else ir) + 1), ?_, ?_, ?_, ?_⟩
      · simp only [throttleFrom, if_pos hr, List.append_assoc]
        rfl
      · intro x hx
        split_ifs at hx
        · simpa using hx
        · cases hx
      · exact throttle_none _ _ _ _ _ (by omega)
      · rintro L rfl hL rfl
        have hk := (readerAt_step L i hL).1
        rw [← hr]
        by_cases he : readerAt L i = L
        · rw [if_pos he] at hk
          rw [he, if_pos rfl]
          simp [barriers]; omega
        · rw [if_neg he] at hk
          rw [if_neg (by omega)]
          simp [barriers]; omega
    · obtain ⟨pre, post, e, h1, h2, h3⟩ := ih (i + 1) ((if ir = limit then 0 else ir) + 1) (by omega) (by omega)
      refine ⟨(if ir = limit then [.barrier] else []) ++ pre, post, ?_, ?_, h2, ?_⟩
      · simp only [throttleFrom, if_neg hr, e, List.append_assoc, List.nil_append]
      · intro x hx
        rcases List.mem_append.1 hx with hx | hx
        · split_ifs at hx
          · simpa using hx
          · cases hx
        · exact h1 x hx
      · rintro L rfl hL rfl
        have hk := readerAt_step L i hL
        by_cases he : readerAt L i = L
        · simp only [if_pos he] at hk
          have := h3 L rfl hL (by rw [he, if_pos rfl, ← hk.2]; rfl)
          rw [barriers_append, he, if_pos rfl]
          rw [Nat.add_sub_cancel] at this
          simp only [barriers, List.count_cons_self, List.count_nil] at *
          omega
        · simp only [if_neg he] at hk
          have := h3 L rfl hL (by rw [if_neg (by omega), ← hk.2]; rfl)
          rw [barriers_append, if_neg (by omega)]
          rw [Nat.add_sub_cancel] at this
          simp only [barriers, List.count_nil] at *
          omega

/-- What is true in every reachable state. -/
structure ThrottleInv {P : Nat} (prog : Fin P → List Instr) (st : Fin P → Proc) (past : Fin P → List Instr) : Prop where
  split : ∀ p, past p ++ (st p).todo = prog p
  entered : ∀ p, (st p).entered = barriers (past p) + if (st p).waiting then 1 else 0
  waiting : ∀ p, (st p).waiting = true → ∃ rest, (st p).todo = .barrier :: rest
  completed : ∀ p, (st p).completed = (past p).count .finish
  sync : ∀ p q, barriers (past p) ≤ (st q).entered

theorem throttle_inv {P : Nat} {start st : Fin P → Proc} (h0 : ∀ p, start p = { todo := (start p).todo }) (h : Reach start st) :
    ∃ past, ThrottleInv (fun p => (start p).todo) st past := by
  induction h with
  | refl =>
    refine ⟨fun _ => [], ⟨fun p => rfl, fun p => ?_, fun p hw => ?_, fun p => ?_, fun p q => Nat.zero_le _⟩⟩
    · rw [h0 p]; rfl
    · rw [h0 p] at hw; cases hw
    · rw [h0 p]; rfl
  | step st st' hr hs ih =>
    obtain ⟨past, hp⟩ := ih
    cases hs with
    | begin p rest h =>
      have hnw : (st p).waiting = false := by
        by_contra hw
        obtain ⟨r, hr⟩ := hp.waiting p (by simpa using hw)
        rw [hr] at h; cases h
      have hb : barriers (past p ++ [.begin]) = barriers (past p) := by rw [barriers_append]; rfl
      refine ⟨Function.update past p (past p ++ [.begin]), ⟨?_, ?_, ?_, ?_, ?_⟩⟩
      · intro q
        by_cases hq : q = p
        · subst hq; have := hp.split q; rw [h] at this; simpa using this
        · simpa [hq] using hp.split q
      · intro q
        by_cases hq : q = p
        · subst hq; simpa [hb] using hp.entered q
        · simpa [hq] using hp.entered q
      · intro q
        by_cases hq : q = p
        · subst hq; simp [hnw]
        · simpa [hq] using hp.waiting q
      · intro q
        by_cases hq : q = p
        · subst hq; simpa [List.count_append] using hp.completed q
        · simpa [hq] using hp.completed q
      · intro q q'
        have h1 : barriers (Function.update past p (past p ++ [.begin]) q) = barriers (past q) := by
          by_cases hq : q = p
          · subst hq; simpa using hb
          · simp [hq]
        have h2 : (Function.update st p { st p with todo := rest } q').entered = (st q').entered := by
          by_cases hq : q' = p
          · subst hq; simp
          · simp [hq]
        rw [h1, h2]
        exact hp.sync q q'
    | finish p rest h =>
      have hnw : (st p).waiting = false := by
        by_contra hw
        obtain ⟨r, hr⟩ := hp.waiting p (by simpa using hw)
        rw [hr] at h; cases h
      have hb : barriers (past p ++ [.finish]) = barriers (past p) := by rw [barriers_append]; rfl
      refine ⟨Function.update past p (past p ++ [.finish]), ⟨?_, ?_, ?_, ?_, ?_⟩⟩
      · intro q
        by_cases hq : q = p
        · subst hq; have := hp.split q; rw [h] at this; simpa using this
        · simpa [hq] using hp.split q
      · intro q
        by_cases hq : q = p
        · subst hq; simpa [hb] using hp.entered q
        · simpa [hq] using hp.entered q
      · intro q
        by_cases hq : q = p
        · subst hq; simp [hnw]
        · simpa [hq] using hp.waiting q
      · intro q
        by_cases hq : q = p
        · subst hq; simpa [List.count_append] using hp.completed q
        · simpa [hq] using hp.completed q
      · intro q q'
        have h1 : barriers (Function.update past p (past p ++ [.finish]) q) = barriers (past q) := by
          by_cases hq : q = p
          · subst hq; simpa using hb
          · simp [hq]
        have h2 : (Function.update st p { st p with todo := rest, completed := (st p).completed + 1 } q').entered = (st q').entered := by
          by_cases hq : q' = p
          · subst hq; simp
          · simp [hq]
        rw [h1, h2]
        exact hp.sync q q'
    | enter p rest h hw =>
      refine ⟨past, ⟨?_, ?_, ?_, ?_, ?_⟩⟩
      · intro q
        by_cases hq : q = p
        · subst hq; simpa using hp.split q
        · simpa [hq] using hp.split q
      · intro q
        by_cases hq : q = p
        · subst hq; have := hp.entered q; rw [hw] at this; simpa using this
        · simpa [hq] using hp.entered q
      · intro q
        by_cases hq : q = p
        · subst hq; intro _; exact ⟨rest, by simpa using h⟩
        · simpa [hq] using hp.waiting q
      · intro q
        by_cases hq : q = p
        · subst hq; simpa using hp.completed q
        · simpa [hq] using hp.completed q
      · intro q q'
        refine (hp.sync q q').trans ?_
        by_cases hq : q' = p
        · subst hq; simp
        · simp [hq]
    | leave p rest h hw all =>
      have hb : barriers (past p ++ [.barrier]) = (st p).entered := by
        have := hp.entered p
        rw [hw] at this
        rw [this, barriers_append]
        rfl
      refine ⟨Function.update past p (past p ++ [.barrier]), ⟨?_, ?_, ?_, ?_, ?_⟩⟩
      · intro q
        by_cases hq : q = p
        · subst hq; have := hp.split q; rw [h] at this; simpa using this
        · simpa [hq] using hp.split q
      · intro q
        by_cases hq : q = p
        · subst hq; simp [hb]
        · simpa [hq] using hp.entered q
      · intro q
        by_cases hq : q = p
        · subst hq; simp
        · simpa [hq] using hp.waiting q
      · intro q
        by_cases hq : q = p
        · subst hq; simpa [List.count_append] using hp.completed q
        · simpa [hq] using hp.completed q
      · intro q q'
        have h2 : (Function.update st p { st p with todo := rest, waiting := false } q').entered = (st q').entered := by
          by_cases hq : q' = p
          · subst hq; simp
          · simp [hq]
        rw [h2]
        by_cases hq : q = p
        · subst hq
          rw [Function.update_self, hb]
          exact all q'
        · rw [Function.update_of_ne hq]
          exact hp.sync q q'

/-- The only place where `.finish` comes next. -/
theorem unique_finish {pre post past rest : List Instr} (h1 : ∀ x ∈ pre, x = .barrier) (h2 : ∀ x ∈ post, x = .barrier)
    (h : past ++ .finish :: rest = pre ++ .begin :: .finish :: post) : past = pre ++ [.begin] := by
  induction pre generalizing past with
  | nil =>
    cases past with
    | nil => simp at h
    | cons a past =>
      simp only [List.cons_append, List.nil_append, List.cons.injEq] at h
      obtain ⟨rfl, h⟩ := h
      cases past with
      | nil => rfl
      | cons b past =>
        simp only [List.cons_append, List.cons.injEq] at h
        have : Instr.finish ∈ post := by rw [← h.2]; simp
        exact absurd (h2 _ this) (by decide)
  | cons x pre ih =>
    cases past with
    | nil =>
      simp only [List.nil_append, List.cons_append, List.cons.injEq] at h
      exact absurd (h1 x (by simp)) (by rw [← h.1]; decide)
    | cons a past =>
      simp only [List.cons_append, List.cons.injEq] at h
      rw [h.1, ih (fun y hy => h1 y (by simp [hy])) h.2]
      rfl

/-- C36. In every state reachable in any schedule, with a positive `MaxConcurrentIO`, at most `MaxConcurrentIO`
processes are reading or writing. -/
theorem C36_throttled (P L : Nat) (hL : 0 < L) (st : Fin P → Proc) (h : Reach (throttled P L) st) :
    (Finset.univ.filter (fun p => (st p).busy)).card ≤ L := by
  obtain ⟨past, hp⟩ := throttle_inv (fun p => rfl) h
  have hbusy : ∀ p, (st p).busy → (st p).entered = p.val / L ∧ barriers (past p) = p.val / L := by
    intro p ⟨rest, hrest⟩
    obtain ⟨pre, post, e, h1, h2, h3⟩ := throttle_shape (L : Int) p.val P 0 0 (Nat.zero_le _) (by have := p.isLt; omega)
    have hs := hp.split p
    rw [hrest] at hs
    have hs' : past p ++ .finish :: rest = pre ++ .begin :: .finish :: post := hs.trans e
    have hpast := unique_finish h1 h2 hs'
    have hb : barriers (past p) = p.val / L := by
      have := h3 L rfl hL (by simp [readerAt])
      rw [hpast, barriers_append]
      simpa [barriers] using this
    have hnw : (st p).waiting = false := by
      by_contra hw
      obtain ⟨r, hr⟩ := hp.waiting p (by simpa using hw)
      rw [hr] at hrest; cases hrest
    refine ⟨?_, hb⟩
    have := hp.entered p
    rw [hnw, hb] at this
    simpa using this
  have hsame : ∀ p q, (st p).busy → (st q).busy → p.val / L = q.val / L := by
    intro p q hpb hqb
    have h1 := hp.sync p q
    have h2 := hp.sync q p
    rw [(hbusy p hpb).2, (hbusy q hqb).1] at h1
    rw [(hbusy q hqb).2, (hbusy p hpb).1] at h2
    omega
  have hcard : (Finset.univ.filter (fun p => (st p).busy)).card ≤ (Finset.range L).card := by
    refine Finset.card_le_card_of_injOn (fun p => p.val % L) (fun p _ => ?_) (fun p hpm q hqm he => ?_)
    · simpa using Nat.mod_lt _ hL
    · simp only [Finset.coe_filter, Finset.mem_univ, true_and, Set.mem_setOf_eq] at hpm hqm
      have h1 := hsame p q hpm hqm
      have h2 := Nat.div_add_mod p.val L
      have h3 := Nat.div_add_mod q.val L
      simp only at he
      rw [h1, he] at h2
      exact Fin.ext (by omega)
  simpa using hcard

/-- C36. No deadlock: in every reachable state in which some process is not done, some process can do a
step, for every value of `MaxConcurrentIO`. -/
theorem C36_no_deadlock (P : Nat) (limit : Int) (st : Fin P → Proc) (h : Reach (throttled P limit) st)
    (hn : ∃ p, (st p).todo ≠ []) : ∃ st', Step st st' := by
  obtain ⟨past, hp⟩ := throttle_inv (fun p => rfl) h
  by_cases hw : ∃ p, (st p).todo ≠ [] ∧ (st p).waiting = false
  · obtain ⟨p, h1, h2⟩ := hw
    cases ht : (st p).todo with
    | nil => exact absurd ht h1
    | cons x rest =>
      cases x with
      | begin => exact ⟨_, .begin p rest ht⟩
      | finish => exact ⟨_, .finish p rest ht⟩
      | barrier => exact ⟨_, .enter p rest ht h2⟩
  · have hall : ∀ p, (st p).todo ≠ [] → (st p).waiting = true := by
      intro p h1
      by_contra h2
      exact hw ⟨p, h1, by simpa using h2⟩
    -- the total number of barriers is the same for all
    have htot : ∀ p q, barriers (throttled P limit p).todo = barriers (throttled P limit q).todo :=
      fun p q => throttle_barriers limit p.val q.val P 0 0
    obtain ⟨p0, hp0⟩ := hn
    obtain ⟨p, hpm, hmin⟩ := Finset.exists_min_image (Finset.univ.filter (fun p => (st p).todo ≠ [])) (fun p => (st p).entered)
      ⟨p0, by simpa using hp0⟩
    simp only [Finset.mem_filter, Finset.mem_univ, true_and] at hpm hmin
    obtain ⟨rest, hr⟩ := hp.waiting p (hall p hpm)
    refine ⟨_, .leave p rest hr (hall p hpm) (fun q => ?_)⟩
    by_cases hq : (st q).todo = []
    · have hsq := hp.split q
      have hsp := hp.split p
      have ht := htot p q
      have ep := hp.entered p
      have eq' := hp.entered q
      rw [← hsp, ← hsq, barriers_append, barriers_append, hq, hr] at ht
      have hb1 : barriers (.barrier :: rest) = barriers rest + 1 := by simp [barriers]
      rw [hall p hpm] at ep
      rw [hb1] at ht
      simp only [if_true] at ep
      have : barriers ([] : List Instr) = 0 := rfl
      omega
    · exact hmin q hq

/-- Steps left, at most. -/
def stepsLeft {P : Nat} (st : Fin P → Proc) : Nat :=
  ∑ p, (2 * (st p).todo.length + if (st p).waiting then 0 else 1)

theorem step_decreases {P : Nat} {st st' : Fin P → Proc} (h : Step st st') : stepsLeft st' < stepsLeft st := by
  have key : ∀ (p : Fin P) (x : Proc), (2 * x.todo.length + if x.waiting then 0 else 1) < (2 * (st p).todo.length + if (st p).waiting then 0 else 1) →
      stepsLeft (Function.update st p x) < stepsLeft st := by
    intro p x hx
    unfold stepsLeft
    refine Finset.sum_lt_sum (fun q _ => ?_) ⟨p, Finset.mem_univ _, by simpa using hx⟩
    by_cases hq : q = p
    · subst hq; simpa using hx.le
    · simp [hq]
  cases h with
  | begin p rest h =>
    refine key p _ ?_
    rw [h]
    simp only [List.length_cons]
    omega
  | finish p rest h =>
    refine key p _ ?_
    rw [h]
    simp only [List.length_cons]
    omega
  | enter p rest h hw =>
    refine key p _ ?_
    simp [hw]
  | leave p rest h hw all =>
    refine key p _ ?_
    rw [h, hw]
    simp only [List.length_cons]
    simp
    omega

/-- C36. There is no endless schedule. -/
theorem C36_no_endless_wait (P : Nat) (limit : Int) :
    ¬ ∃ run : Nat → Fin P → Proc, run 0 = throttled P limit ∧ ∀ n, Step (run n) (run (n + 1)) := by
  rintro ⟨run, _, hs⟩
  have : ∀ n, stepsLeft (run n) + n ≤ stepsLeft (run 0) := by
    intro n
    induction n with
    | zero => exact le_refl _
    | succ n ih =>
      have := step_decreases (hs n)
      omega
  have := this (stepsLeft (run 0) + 1)
  omega

/-- C36. When no step is possible any more, every process is through and has read or written exactly once. -/
theorem C36_each_once (P : Nat) (limit : Int) (st : Fin P → Proc) (h : Reach (throttled P limit) st)
    (hend : ¬ ∃ st', Step st st') : ∀ p, (st p).todo = [] ∧ (st p).completed = 1 := by
  have hall : ∀ p, (st p).todo = [] := by
    intro p
    by_contra hp
    exact hend (C36_no_deadlock P limit st h ⟨p, hp⟩)
  obtain ⟨past, hp⟩ := throttle_inv (fun p => rfl) h
  intro p
  refine ⟨hall p, ?_⟩
  obtain ⟨pre, post, e, h1, h2, _⟩ := throttle_shape limit p.val P 0 0 (Nat.zero_le _) (by have := p.isLt; omega)
  have hs := hp.split p
  rw [hall p, List.append_nil] at hs
  have hs' : past p = pre ++ .begin :: .finish :: post := hs.trans e
  have hz : ∀ l : List Instr, (∀ x ∈ l, x = .barrier) → l.count .finish = 0 := by
    intro l hl
    rw [List.count_eq_zero]
    intro hm
    exact absurd (hl _ hm) (by decide)
  rw [hp.completed p, hs', List.count_append, hz pre h1]
  simp [hz post h2]

/-! Three processes, two at a time: a schedule in which two are busy. -/

def exThrottle1 : Fin 3 → Proc := Function.update (throttled 3 2) 0 { throttled 3 2 0 with todo := [.finish, .barrier] }
def exThrottle2 : Fin 3 → Proc := Function.update exThrottle1 1 { exThrottle1 1 with todo := [.finish, .barrier] }

theorem exThrottle_reach : Reach (throttled 3 2) exThrottle2 :=
  .step _ _ (.step _ _ .refl (.begin 0 _ (by decide))) (.begin 1 _ (by decide))

example : (Finset.univ.filter (fun p => (exThrottle2 p).busy)).card = 2 := by decide
example : (Finset.univ.filter (fun p => (exThrottle2 p).busy)).card ≤ 2 := C36_throttled 3 2 (by decide) _ exThrottle_reach
example : (exThrottle2 2).todo = [.barrier, .begin, .finish] := by decide
example : ∃ st', Step exThrottle2 st' := C36_no_deadlock 3 2 _ exThrottle_reach ⟨0, by decide⟩

/-- C36, what does not hold: with `MaxConcurrentIO` 0 there is one barrier at the beginning and no limit. -/
theorem C36_zero_unlimited : ∃ st : Fin 3 → Proc, Reach (throttled 3 0) st ∧ ∀ p, (st p).busy := by
  refine ⟨fun p => { todo := [.finish], entered := 1 }, ?_, fun p => ⟨[], rfl⟩⟩
  have e0 : throttled 3 0 = fun _ => { todo := [.barrier, .begin, .finish] } := by decide
  rw [e0]
  let mk (a b c : Proc) : Fin 3 → Proc := fun p => if p = 0 then a else if p = 1 then b else c
  let A : Proc := { todo := [.barrier, .begin, .finish] }
  let B : Proc := { todo := [.barrier, .begin, .finish], entered := 1, waiting := true }
  let C : Proc := { todo := [.begin, .finish], entered := 1 }
  let E : Proc := { todo := [.finish], entered := 1 }
  have s1 : Step (mk A A A) (mk B A A) := by
    have := Step.enter (st := mk A A A) 0 [.begin, .finish] (by decide) (by decide)
    convert this using 1
    funext p; fin_cases p <;> rfl
  have s2 : Step (mk B A A) (mk B B A) := by
    have := Step.enter (st := mk B A A) 1 [.begin, .finish] (by decide) (by decide)
    convert this using 1
    funext p; fin_cases p <;> rfl
  have s3 : Step (mk B B A) (mk B B B) := by
    have := Step.enter (st := mk B B A) 2 [.begin, .finish] (by decide) (by decide)
    convert this using 1
    funext p; fin_cases p <;> rfl
  have s4 : Step (mk B B B) (mk C B B) := by
    have := Step.leave (st := mk B B B) 0 [.begin, .finish] (by decide) (by decide) (by decide)
    convert this using 1
    funext p; fin_cases p <;> rfl
  have s5 : Step (mk C B B) (mk C C B) := by
    have := Step.leave (st := mk C B B) 1 [.begin, .finish] (by decide) (by decide) (by decide)
    convert this using 1
    funext p; fin_cases p <;> rfl
  have s6 : Step (mk C C B) (mk C C C) := by
    have := Step.leave (st := mk C C B) 2 [.begin, .finish] (by decide) (by decide) (by decide)
    convert this using 1
    funext p; fin_cases p <;> rfl
  have s7 : Step (mk C C C) (mk E C C) := by
    have := Step.begin (st := mk C C C) 0 [.finish] (by decide)
    convert this using 1
    funext p; fin_cases p <;> rfl
  have s8 : Step (mk E C C) (mk E E C) := by
    have := Step.begin (st := mk E C C) 1 [.finish] (by decide)
    convert this using 1
    funext p; fin_cases p <;> rfl
  have s9 : Step (mk E E C) (mk E E E) := by
    have := Step.begin (st := mk E E C) 2 [.finish] (by decide)
    convert this using 1
    funext p; fin_cases p <;> rfl
  have h0 : (fun _ => A) = mk A A A := by funext p; fin_cases p <;> rfl
  have h9 : (fun _ => E) = mk E E E := by funext p; fin_cases p <;> rfl
  change Reach (fun _ => A) (fun _ => E)
  rw [h0, h9]
  exact .step _ _ (.step _ _ (.step _ _ (.step _ _ (.step _ _ (.step _ _ (.step _ _ (.step _ _ (.step _ _ .refl s1) s2) s3) s4) s5) s6) s7) s8) s9

end HBT.Props
