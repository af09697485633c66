import Mathlib.Data.List.Perm.Basic
import Mathlib.Algebra.BigOperators.Group.List.Basic
import Mathlib.Data.Set.Basic
import Verif.Spec.Threads
/-!
# Helper lemmas: iterations that do not interfere
-/
namespace HBT.Threads
variable {L : Type} {V : L → Type} {α β : Type} [DecidableEq L]

/-! ## A program run alone -/

theorem bind_eq (p : Prog L V α) (f : α → Prog L V β) : (p >>= f) = p.bind f := rfl
theorem pure_eq (a : α) : (pure a : Prog L V α) = .ret a := rfl

/-- The result and the memory afterwards. -/
def runs : Prog L V α → Mem L V → Option (α × Mem L V)
  | .ret a, m => some (a, m)
  | .fail, _ => none
  | .read ℓ k, m => match m ℓ with
    | some v => runs (k v) m
    | none => none
  | .write ℓ v k, m => match m ℓ with
    | some _ => runs k (Function.update m ℓ (some v))
    | none => none
  | .fetch ℓ f k, m => match m ℓ with
    | some v => runs (k v) (Function.update m ℓ (some (f v)))
    | none => none

/-- The accesses made. -/
def accs : Prog L V α → Mem L V → List (Access L V)
  | .ret _, _ => []
  | .fail, _ => []
  | .read ℓ k, m => match m ℓ with
    | some v => .read ℓ :: accs (k v) m
    | none => []
  | .write ℓ v k, m => match m ℓ with
    | some _ => .write ℓ v :: accs k (Function.update m ℓ (some v))
    | none => []
  | .fetch ℓ f k, m => match m ℓ with
    | some v => .fetch ℓ :: accs (k v) (Function.update m ℓ (some (f v)))
    | none => []

/-- `p` run alone on the memory `m` gives `a` and the memory `m'`, with accesses in `A` only. -/
def Does (A : Access L V → Prop) (p : Prog L V α) (m : Mem L V) (a : α) (m' : Mem L V) : Prop :=
  runs p m = some (a, m') ∧ ∀ x ∈ accs p m, A x

theorem Does.ret (A : Access L V → Prop) (a : α) (m : Mem L V) : Does A (.ret a) m a m :=
  ⟨rfl, fun x hx => by cases hx⟩

theorem Does.pure (A : Access L V → Prop) (a : α) (m : Mem L V) : Does A (Pure.pure a) m a m := Does.ret A a m

theorem Does.bind {A : Access L V → Prop} : ∀ {p : Prog L V α} {f : α → Prog L V β} {m m1 m2 : Mem L V} {a : α} {b : β},
    Does A p m a m1 → Does A (f a) m1 b m2 → Does A (p >>= f) m b m2 := by
  intro p f
  rw [bind_eq]
  induction p with
  | ret a' =>
    intro m m1 m2 a b h1 h2
    have := h1.1
    simp only [runs, Option.some.injEq, Prod.mk.injEq] at this
    obtain ⟨rfl, rfl⟩ := this
    exact h2
  | fail => intro m m1 m2 a b h1 _; simp [Does, runs] at h1
  | read ℓ k ih =>
    intro m m1 m2 a b h1 h2
    unfold Does at h1 ⊢
    simp only [Prog.bind, runs, accs] at h1 ⊢
    cases hm : m ℓ with
    | none => rw [hm] at h1; simp at h1
    | some v =>
      rw [hm] at h1
      simp only at h1 ⊢
      have := ih v (m := m) ⟨h1.1, fun x hx => h1.2 x (List.mem_cons_of_mem _ hx)⟩ h2
      refine ⟨this.1, fun x hx => ?_⟩
      rcases List.mem_cons.1 hx with rfl | hx
      · exact h1.2 _ List.mem_cons_self
      · exact this.2 x hx
  | write ℓ v k ih =>
    intro m m1 m2 a b h1 h2
    unfold Does at h1 ⊢
    simp only [Prog.bind, runs, accs] at h1 ⊢
    cases hm : m ℓ with
    | none => rw [hm] at h1; simp at h1
    | some v' =>
      rw [hm] at h1
      simp only at h1 ⊢
      have := ih (m := Function.update m ℓ (some v)) ⟨h1.1, fun x hx => h1.2 x (List.mem_cons_of_mem _ hx)⟩ h2
      refine ⟨this.1, fun x hx => ?_⟩
      rcases List.mem_cons.1 hx with rfl | hx
      · exact h1.2 _ List.mem_cons_self
      · exact this.2 x hx
  | fetch ℓ g k ih =>
    intro m m1 m2 a b h1 h2
    unfold Does at h1 ⊢
    simp only [Prog.bind, runs, accs] at h1 ⊢
    cases hm : m ℓ with
    | none => rw [hm] at h1; simp at h1
    | some v =>
      rw [hm] at h1
      simp only at h1 ⊢
      have := ih v (m := Function.update m ℓ (some (g v))) ⟨h1.1, fun x hx => h1.2 x (List.mem_cons_of_mem _ hx)⟩ h2
      refine ⟨this.1, fun x hx => ?_⟩
      rcases List.mem_cons.1 hx with rfl | hx
      · exact h1.2 _ List.mem_cons_self
      · exact this.2 x hx

theorem Does.mono {A B : Access L V → Prop} (h : ∀ x, A x → B x) {p : Prog L V α} {m m' : Mem L V} {a : α} (hp : Does A p m a m') :
    Does B p m a m' := ⟨hp.1, fun x hx => h x (hp.2 x hx)⟩

theorem Does.load {A : Access L V → Prop} {ℓ : L} {m : Mem L V} {v : V ℓ} (hm : m ℓ = some v) (hA : A (.read ℓ)) :
    Does A (load ℓ) m v m := by
  unfold Does Threads.load
  simp only [runs, accs, hm]
  exact ⟨trivial, fun x hx => by rcases List.mem_cons.1 hx with rfl | hx; exacts [hA, by cases hx]⟩

theorem Does.store {A : Access L V → Prop} {ℓ : L} {m : Mem L V} {old : V ℓ} (v : V ℓ) (hm : m ℓ = some old) (hA : A (.write ℓ v)) :
    Does A (store ℓ v) m () (Function.update m ℓ (some v)) := by
  unfold Does Threads.store
  simp only [runs, accs, hm]
  exact ⟨trivial, fun x hx => by rcases List.mem_cons.1 hx with rfl | hx; exacts [hA, by cases hx]⟩

/-! ## Interference -/

/-- The location of an access. -/
def Access.loc : Access L V → L
  | .read ℓ => ℓ
  | .write ℓ _ => ℓ
  | .fetch ℓ => ℓ

/-- Exchanging the order of the accesses may make a difference. -/
def Interferes (a b : Access L V) : Prop :=
  a.loc = b.loc ∧ ¬ (∃ ℓ ℓ', a = .read ℓ ∧ b = .read ℓ') ∧ ¬ ∃ ℓ v, a = .write ℓ v ∧ b = .write ℓ v

theorem Interferes.symm {a b : Access L V} (h : Interferes a b) : Interferes b a := by
  refine ⟨h.1.symm, ?_, ?_⟩
  · rintro ⟨ℓ, ℓ', rfl, rfl⟩; exact h.2.1 ⟨ℓ', ℓ, rfl, rfl⟩
  · rintro ⟨ℓ, v, rfl, rfl⟩; exact h.2.2 ⟨ℓ, v, rfl, rfl⟩

/-- An access that writes. -/
def Access.writes : Access L V → Prop
  | .read _ => False
  | _ => True

/-- A value written to a location that a program does not read, and to which it writes nothing else, commutes with the program. -/
theorem runs_update {ℓ : L} {v : V ℓ} : ∀ (p : Prog L V α) (m m' : Mem L V) (a : α) (old : V ℓ), m ℓ = some old → runs p m = some (a, m') →
    (∀ x ∈ accs p m, ¬ Interferes (.write ℓ v) x) →
    runs p (Function.update m ℓ (some v)) = some (a, Function.update m' ℓ (some v)) ∧
      accs p (Function.update m ℓ (some v)) = accs p m := by
  intro p
  induction p with
  | ret a' =>
    intro m m' a old _ h _
    simp only [runs, Option.some.injEq, Prod.mk.injEq] at h
    obtain ⟨rfl, rfl⟩ := h
    exact ⟨rfl, rfl⟩
  | fail => intro m m' a old _ h _; cases h
  | read ℓ' k ih =>
    intro m m' a old ho h hA
    simp only [runs, accs] at h hA ⊢
    cases hm : m ℓ' with
    | none => rw [hm] at h; cases h
    | some w =>
      rw [hm] at h hA
      simp only at h hA
      have hne : ℓ' ≠ ℓ := by
        rintro rfl
        refine hA _ List.mem_cons_self ⟨rfl, ?_, ?_⟩
        · rintro ⟨_, _, h, _⟩; cases h
        · rintro ⟨_, _, _, h⟩; cases h
      rw [Function.update_of_ne hne, hm]
      simp only
      obtain ⟨h1, h2⟩ := ih w m m' a old ho h (fun x hx => hA x (List.mem_cons_of_mem _ hx))
      exact ⟨h1, by rw [h2]⟩
  | write ℓ' w k ih =>
    intro m m' a old ho h hA
    simp only [runs, accs] at h hA ⊢
    cases hm : m ℓ' with
    | none => rw [hm] at h; cases h
    | some w' =>
      rw [hm] at h hA
      simp only at h hA
      by_cases hne : ℓ' = ℓ
      · subst hne
        have hw : w = v := by
          by_contra hw
          refine hA _ List.mem_cons_self ⟨rfl, ?_, ?_⟩
          · rintro ⟨_, _, h, _⟩; cases h
          · rintro ⟨ℓ, u, h1, h2⟩
            cases h1; cases h2
            exact hw rfl
        subst hw
        rw [Function.update_self]
        simp only [Function.update_idem]
        have hm' := ih _ m' a w (by rw [Function.update_self]) h (fun x hx => hA x (List.mem_cons_of_mem _ hx))
        rw [Function.update_idem] at hm'
        refine ⟨?_, trivial⟩
        rw [h]
        rw [h] at hm'
        simpa using hm'.1
      · rw [Function.update_of_ne hne, hm]
        simp only
        rw [Function.update_comm (Ne.symm hne)]
        obtain ⟨h1, h2⟩ := ih (Function.update m ℓ' (some w)) m' a old (by rw [Function.update_of_ne (Ne.symm hne), ho]) h
          (fun x hx => hA x (List.mem_cons_of_mem _ hx))
        exact ⟨h1, by rw [h2]⟩
  | fetch ℓ' g k ih =>
    intro m m' a old ho h hA
    simp only [runs, accs] at h hA ⊢
    cases hm : m ℓ' with
    | none => rw [hm] at h; cases h
    | some w =>
      rw [hm] at h hA
      simp only at h hA
      have hne : ℓ' ≠ ℓ := by
        rintro rfl
        refine hA _ List.mem_cons_self ⟨rfl, ?_, ?_⟩
        · rintro ⟨_, _, h, _⟩; cases h
        · rintro ⟨_, _, _, h⟩; cases h
      rw [Function.update_of_ne hne, hm]
      simp only
      rw [Function.update_comm (Ne.symm hne)]
      obtain ⟨h1, h2⟩ := ih w (Function.update m ℓ' (some (g w))) m' a old (by rw [Function.update_of_ne (Ne.symm hne), ho]) h
        (fun x hx => hA x (List.mem_cons_of_mem _ hx))
      exact ⟨h1, by rw [h2]⟩

/-- The same for a change in the critical section. -/
theorem runs_update' {ℓ : L} {v : V ℓ} (p : Prog L V α) (m m' : Mem L V) (a : α) (old : V ℓ) (ho : m ℓ = some old) (h : runs p m = some (a, m'))
    (hA : ∀ x ∈ accs p m, ¬ Interferes (.fetch ℓ) x) :
    runs p (Function.update m ℓ (some v)) = some (a, Function.update m' ℓ (some v)) ∧
      accs p (Function.update m ℓ (some v)) = accs p m := by
  refine runs_update p m m' a old ho h (fun x hx hi => hA x hx ⟨hi.1, ?_, ?_⟩)
  · rintro ⟨_, _, h, _⟩; cases h
  · rintro ⟨_, _, h, _⟩; cases h

/-- A location that a program does not write keeps its content. -/
theorem runs_frame {ℓ : L} : ∀ (p : Prog L V α) (m m' : Mem L V) (a : α), runs p m = some (a, m') →
    (∀ x ∈ accs p m, x.loc = ℓ → ¬ x.writes) → m' ℓ = m ℓ := by
  intro p
  induction p with
  | ret a' =>
    intro m m' a h _
    simp only [runs, Option.some.injEq, Prod.mk.injEq] at h
    rw [h.2]
  | fail => intro m m' a h _; cases h
  | read ℓ' k ih =>
    intro m m' a h hA
    simp only [runs, accs] at h hA
    cases hm : m ℓ' with
    | none => rw [hm] at h; cases h
    | some w =>
      rw [hm] at h hA
      exact ih w m m' a h (fun x hx => hA x (List.mem_cons_of_mem _ hx))
  | write ℓ' w k ih =>
    intro m m' a h hA
    simp only [runs, accs] at h hA
    cases hm : m ℓ' with
    | none => rw [hm] at h; cases h
    | some w' =>
      rw [hm] at h hA
      simp only at h hA
      have hne : ℓ ≠ ℓ' := fun e => hA _ List.mem_cons_self e.symm trivial
      rw [ih _ m' a h (fun x hx => hA x (List.mem_cons_of_mem _ hx)), Function.update_of_ne hne]
  | fetch ℓ' g k ih =>
    intro m m' a h hA
    simp only [runs, accs] at h hA
    cases hm : m ℓ' with
    | none => rw [hm] at h; cases h
    | some w =>
      rw [hm] at h hA
      simp only at h hA
      have hne : ℓ ≠ ℓ' := fun e => hA _ List.mem_cons_self e.symm trivial
      rw [ih w _ m' a h (fun x hx => hA x (List.mem_cons_of_mem _ hx)), Function.update_of_ne hne]

/-- A location that exists still exists afterwards. -/
theorem runs_exists {ℓ : L} : ∀ (p : Prog L V α) (m m' : Mem L V) (a : α), runs p m = some (a, m') → (∃ v, m ℓ = some v) → ∃ v, m' ℓ = some v := by
  intro p
  induction p with
  | ret a' =>
    intro m m' a h hv
    simp only [runs, Option.some.injEq, Prod.mk.injEq] at h
    rw [← h.2]; exact hv
  | fail => intro m m' a h; cases h
  | read ℓ' k ih =>
    intro m m' a h hv
    simp only [runs] at h
    cases hm : m ℓ' with
    | none => rw [hm] at h; cases h
    | some w => rw [hm] at h; exact ih w m m' a h hv
  | write ℓ' w k ih =>
    intro m m' a h hv
    simp only [runs] at h
    cases hm : m ℓ' with
    | none => rw [hm] at h; cases h
    | some w' =>
      rw [hm] at h
      refine ih _ m' a h ?_
      by_cases e : ℓ = ℓ'
      · subst e; exact ⟨w, by rw [Function.update_self]⟩
      · rw [Function.update_of_ne e]; exact hv
  | fetch ℓ' g k ih =>
    intro m m' a h hv
    simp only [runs] at h
    cases hm : m ℓ' with
    | none => rw [hm] at h; cases h
    | some w =>
      rw [hm] at h
      refine ih w _ m' a h ?_
      by_cases e : ℓ = ℓ'
      · subst e; exact ⟨g w, by rw [Function.update_self]⟩
      · rw [Function.update_of_ne e]; exact hv

/-- No access of the one interferes with one of the other. -/
def Apart (A B : List (Access L V)) : Prop := ∀ a ∈ A, ∀ b ∈ B, ¬ Interferes a b

theorem Apart.symm {A B : List (Access L V)} (h : Apart A B) : Apart B A := fun a ha b hb hi => h b hb a ha hi.symm

/-- A read commutes with a program that does not write there. -/
theorem apart_read {ℓ : L} {A : List (Access L V)} (h : ∀ x ∈ A, ¬ Interferes (.read ℓ) x) : ∀ x ∈ A, x.loc = ℓ → ¬ x.writes := by
  intro x hx e hw
  refine h x hx ⟨e.symm, ?_, ?_⟩
  · rintro ⟨_, _, _, rfl⟩; exact hw
  · rintro ⟨_, _, h, _⟩; cases h

/-- Programs that do not interfere commute. -/
theorem commute (p : Prog L V α) : ∀ (q : Prog L V β) (m mp mq : Mem L V) (a : α) (b : β), runs p m = some (a, mp) → runs q m = some (b, mq) →
    Apart (accs q m) (accs p m) →
    ∃ mf, runs q mp = some (b, mf) ∧ runs p mq = some (a, mf) ∧ accs q mp = accs q m ∧ accs p mq = accs p m := by
  intro q
  induction q with
  | ret b' =>
    intro m mp mq a b hp hq _
    simp only [runs, Option.some.injEq, Prod.mk.injEq] at hq
    obtain ⟨rfl, rfl⟩ := hq
    exact ⟨mp, rfl, hp, rfl, rfl⟩
  | fail => intro m mp mq a b _ hq; cases hq
  | read ℓ k ih =>
    intro m mp mq a b hp hq hA
    simp only [runs, accs] at hq hA ⊢
    cases hm : m ℓ with
    | none => rw [hm] at hq; cases hq
    | some v =>
      rw [hm] at hq hA
      simp only at hq hA
      have he : mp ℓ = some v := by
        rw [runs_frame p m mp a hp (apart_read (hA _ List.mem_cons_self)), hm]
      obtain ⟨mf, h1, h2, h3, h4⟩ := ih v m mp mq a b hp hq (fun x hx => hA x (List.mem_cons_of_mem _ hx))
      refine ⟨mf, ?_, h2, ?_, h4⟩
      · rw [he]; exact h1
      · rw [he]; simp only; rw [h3]
  | write ℓ v k ih =>
    intro m mp mq a b hp hq hA
    simp only [runs, accs] at hq hA ⊢
    cases hm : m ℓ with
    | none => rw [hm] at hq; cases hq
    | some old =>
      rw [hm] at hq hA
      simp only at hq hA
      obtain ⟨w, he⟩ := runs_exists p m mp a hp ⟨old, hm⟩
      obtain ⟨e1, e2⟩ := runs_update (v := v) p m mp a old hm hp (hA _ List.mem_cons_self)
      obtain ⟨mf, h1, h2, h3, h4⟩ := ih _ _ mq a b e1 hq (by rw [e2]; exact fun x hx => hA x (List.mem_cons_of_mem _ hx))
      refine ⟨mf, ?_, h2, ?_, by rw [h4, e2]⟩
      · rw [he]; exact h1
      · rw [he]; simp only; rw [h3]
  | fetch ℓ g k ih =>
    intro m mp mq a b hp hq hA
    simp only [runs, accs] at hq hA ⊢
    cases hm : m ℓ with
    | none => rw [hm] at hq; cases hq
    | some old =>
      rw [hm] at hq hA
      simp only at hq hA
      have he : mp ℓ = some old := by
        rw [runs_frame p m mp a hp ?_, hm]
        intro x hx e hw
        refine hA _ List.mem_cons_self x hx ⟨e.symm, ?_, ?_⟩
        · rintro ⟨_, _, h, _⟩; cases h
        · rintro ⟨_, _, h, _⟩; cases h
      obtain ⟨e1, e2⟩ := runs_update' (v := g old) p m mp a old hm hp (hA _ List.mem_cons_self)
      obtain ⟨mf, h1, h2, h3, h4⟩ := ih old _ _ mq a b e1 hq (by rw [e2]; exact fun x hx => hA x (List.mem_cons_of_mem _ hx))
      refine ⟨mf, ?_, h2, ?_, by rw [h4, e2]⟩
      · rw [he]; exact h1
      · rw [he]; simp only; rw [h3]

/-! ## Iterations that do not interfere -/

/-- One after the other. -/
def runSeq : List (Prog L V Unit) → Mem L V → Option (Mem L V)
  | [], m => some m
  | p :: ps, m => match runs p m with
    | some (_, m') => runSeq ps m'
    | none => none

/-- Iterations that do not interfere, and never make accesses related by `bad`, which together lead to `m'`. -/
structure Good (bad : Access L V → Access L V → Prop) (ps : List (Prog L V Unit)) (m m' : Mem L V) : Prop where
  ok : ∀ p ∈ ps, ∃ mp, runs p m = some ((), mp)
  apart : ps.Pairwise (fun p q => Apart (accs p m) (accs q m))
  fine : ps.Pairwise (fun p q => ∀ a ∈ accs p m, ∀ b ∈ accs q m, ¬ bad a b ∧ ¬ bad b a)
  seq : runSeq ps m = some m'

/-- What remains to be done after one iteration. -/
theorem Good.tail {bad : Access L V → Access L V → Prop} {p : Prog L V Unit} {ps : List (Prog L V Unit)} {m m' : Mem L V}
    (h : Good bad (p :: ps) m m') : ∃ mp, runs p m = some ((), mp) ∧ Good bad ps mp m' ∧ ∀ q ∈ ps, accs q mp = accs q m := by
  obtain ⟨mp, hp⟩ := h.ok p List.mem_cons_self
  have key : ∀ q ∈ ps, (∃ mq, runs q mp = some ((), mq)) ∧ accs q mp = accs q m := by
    intro q hq
    obtain ⟨mq, hq'⟩ := h.ok q (List.mem_cons_of_mem _ hq)
    obtain ⟨mf, h1, _, h3, _⟩ := commute p q m mp mq () () hp hq' ((List.pairwise_cons.1 h.apart).1 q hq).symm
    exact ⟨⟨mf, h1⟩, h3⟩
  refine ⟨mp, hp, ⟨fun q hq => (key q hq).1, ?_, ?_, ?_⟩, fun q hq => (key q hq).2⟩
  · refine (List.pairwise_cons.1 h.apart).2.imp_of_mem (fun {q q'} hq hq' hx => ?_)
    rw [(key q hq).2, (key q' hq').2]; exact hx
  · refine (List.pairwise_cons.1 h.fine).2.imp_of_mem (fun {q q'} hq hq' hx => ?_)
    rw [(key q hq).2, (key q' hq').2]; exact hx
  · have := h.seq
    simp only [runSeq, hp] at this
    exact this

theorem runSeq_perm {bad : Access L V → Access L V → Prop} {ps qs : List (Prog L V Unit)} (hp : ps.Perm qs) : ∀ {m m' : Mem L V},
    Good bad ps m m' → runSeq qs m = some m' := by
  induction hp with
  | nil => intro m m' h; exact h.seq
  | cons p _ ih =>
    intro m m' h
    obtain ⟨mp, h1, h2, _⟩ := h.tail
    simp only [runSeq, h1]
    exact ih h2
  | swap p q l =>
    intro m m' h
    obtain ⟨mq, h1⟩ := h.ok q List.mem_cons_self
    obtain ⟨mp, h2⟩ := h.ok p (by simp)
    obtain ⟨mf, e1, e2, _, _⟩ := commute p q m mp mq () () h2 h1
      ((List.pairwise_cons.1 h.apart).1 p List.mem_cons_self)
    have := h.seq
    simp only [runSeq, h1, e2] at this
    simp only [runSeq, h2, e1]
    exact this
  | trans h1 h2 ih1 ih2 =>
    intro m m' h
    have hs := ih1 h
    refine ih2 (m := m) (m' := m') ⟨fun p hp => h.ok p (h1.mem_iff.2 hp), ?_, ?_, hs⟩
    · exact h.apart.perm h1 (fun {a b} hx => hx.symm)
    · exact h.fine.perm h1 (fun {a b} hx x hx' y hy' => (hx y hy' x hx').symm)

theorem Good.perm {bad : Access L V → Access L V → Prop} {ps qs : List (Prog L V Unit)} {m m' : Mem L V} (h : Good bad ps m m')
    (hp : ps.Perm qs) : Good bad qs m m' := by
  refine ⟨fun p hq => h.ok p (hp.mem_iff.2 hq), ?_, ?_, runSeq_perm hp h⟩
  · exact h.apart.perm hp (fun {a b} hx => hx.symm)
  · exact h.fine.perm hp (fun {a b} hx x hx' y hy' => (hx y hy' x hx').symm)

/-- The next access of a program is the first of its accesses. -/
theorem accs_next {p : Prog L V α} {m m' : Mem L V} {a : α} {x : Access L V} (hp : runs p m = some (a, m')) (hx : p.next = some x) : x ∈ accs p m := by
  cases p with
  | ret _ => cases hx
  | fail => cases hx
  | read ℓ k =>
    cases hx
    simp only [runs] at hp
    cases hm : m ℓ with
    | none => rw [hm] at hp; cases hp
    | some v => simp [accs, hm]
  | write ℓ v k =>
    cases hx
    simp only [runs] at hp
    cases hm : m ℓ with
    | none => rw [hm] at hp; cases hp
    | some v => simp [accs, hm]
  | fetch ℓ g k =>
    cases hx
    simp only [runs] at hp
    cases hm : m ℓ with
    | none => rw [hm] at hp; cases hp
    | some v => simp [accs, hm]

/-- The steps still to be made. -/
def stepsLeft (ps : List (Prog L V Unit)) (m : Mem L V) : Nat := (ps.map (fun p => (accs p m).length + 1)).sum

theorem stepsLeft_perm {ps qs : List (Prog L V Unit)} (h : ps.Perm qs) (m : Mem L V) : stepsLeft ps m = stepsLeft qs m :=
  (h.map _).sum_eq

/-- One step of the first of the iterations. -/
theorem Good.advance {bad : Access L V → Access L V → Prop} {p p' : Prog L V Unit} {ps : List (Prog L V Unit)} {m m1 m' : Mem L V} {x : Access L V}
    (h : Good bad (p :: ps) m m') (hr : runs p' m1 = runs p m) (ha : accs p m = x :: accs p' m1)
    (hm : ∀ q ∈ ps, ∀ mq, runs q m = some ((), mq) → (∀ y ∈ accs q m, ¬ Interferes x y) → (∃ mq', runs q m1 = some ((), mq')) ∧ accs q m1 = accs q m) :
    Good bad (p' :: ps) m1 m' ∧ stepsLeft (p' :: ps) m1 < stepsLeft (p :: ps) m := by
  have key : ∀ q ∈ ps, (∃ mq, runs q m1 = some ((), mq)) ∧ accs q m1 = accs q m := by
    intro q hq
    obtain ⟨mq, e⟩ := h.ok q (List.mem_cons_of_mem _ hq)
    refine hm q hq mq e (fun y hy => ?_)
    exact (List.pairwise_cons.1 h.apart).1 q hq x (by rw [ha]; exact List.mem_cons_self) y hy
  have hsub : ∀ y ∈ accs p' m1, y ∈ accs p m := by
    intro y hy; rw [ha]; exact List.mem_cons_of_mem _ hy
  refine ⟨⟨?_, ?_, ?_, ?_⟩, ?_⟩
  · intro q hq
    rcases List.mem_cons.1 hq with rfl | hq
    · rw [hr]; exact h.ok p List.mem_cons_self
    · exact (key q hq).1
  · rw [List.pairwise_cons]
    refine ⟨fun q hq a ha' b hb => ?_, ?_⟩
    · rw [(key q hq).2] at hb
      exact (List.pairwise_cons.1 h.apart).1 q hq a (hsub a ha') b hb
    · refine (List.pairwise_cons.1 h.apart).2.imp_of_mem (fun {q q'} hq hq' hx => ?_)
      rw [(key q hq).2, (key q' hq').2]; exact hx
  · rw [List.pairwise_cons]
    refine ⟨fun q hq a ha' b hb => ?_, ?_⟩
    · rw [(key q hq).2] at hb
      exact (List.pairwise_cons.1 h.fine).1 q hq a (hsub a ha') b hb
    · refine (List.pairwise_cons.1 h.fine).2.imp_of_mem (fun {q q'} hq hq' hx => ?_)
      rw [(key q hq).2, (key q' hq').2]; exact hx
  · have := h.seq
    simp only [runSeq] at this ⊢
    rw [hr]; exact this
  · unfold stepsLeft
    rw [List.map_cons, List.map_cons, List.sum_cons, List.sum_cons, ha, List.length_cons]
    have : ps.map (fun p => (accs p m1).length + 1) = ps.map (fun p => (accs p m).length + 1) :=
      List.map_congr_left (fun q hq => by rw [(key q hq).2])
    rw [this]
    omega

/-- The iterations of the threads, with those of one or two threads in front. -/
theorem share_split {T : Nat} {β : Type} (f : Fin T → List β) (t : Fin T) : ∃ rest, ∀ x : List β,
    ((List.finRange T).flatMap (Function.update f t x)).Perm (x ++ rest) := by
  obtain ⟨l1, l2, e⟩ := List.append_of_mem (List.mem_finRange t)
  have hn := List.nodup_finRange T
  rw [e] at hn
  have hn' := List.nodup_middle.1 hn
  rw [List.nodup_cons, List.mem_append] at hn'
  refine ⟨l1.flatMap f ++ l2.flatMap f, fun x => ?_⟩
  have h1 : l1.flatMap (Function.update f t x) = l1.flatMap f := by
    rw [List.flatMap_def, List.flatMap_def]
    congr 1
    refine List.map_congr_left (fun y hy => Function.update_of_ne ?_ _ _)
    rintro rfl; exact hn'.1 (Or.inl hy)
  have h2 : l2.flatMap (Function.update f t x) = l2.flatMap f := by
    rw [List.flatMap_def, List.flatMap_def]
    congr 1
    refine List.map_congr_left (fun y hy => Function.update_of_ne ?_ _ _)
    rintro rfl; exact hn'.1 (Or.inr hy)
  rw [e, List.flatMap_append, List.flatMap_cons, h1, h2, Function.update_self, ← List.append_assoc]
  refine (List.Perm.append_right _ List.perm_append_comm).trans ?_
  rw [List.append_assoc]

theorem share_front {T : Nat} {β : Type} (f : Fin T → List β) (t : Fin T) {x : List β} (h : f t = x) : ∃ rest,
    ((List.finRange T).flatMap f).Perm (x ++ rest) ∧ ∀ y : List β, ((List.finRange T).flatMap (Function.update f t y)).Perm (y ++ rest) := by
  obtain ⟨rest, hr⟩ := share_split f t
  refine ⟨rest, ?_, hr⟩
  have := hr x
  rwa [← h, Function.update_eq_self, h] at this

theorem share_two {T : Nat} {β : Type} (f : Fin T → List β) {t u : Fin T} (hne : t ≠ u) {a b : β} {x y : List β} (ht : f t = a :: x) (hu : f u = b :: y) :
    ∃ rest, ((List.finRange T).flatMap f).Perm (a :: b :: rest) := by
  obtain ⟨rest, h1, h2⟩ := share_front f t ht
  have hu' : Function.update f t [] u = b :: y := by rw [Function.update_of_ne (Ne.symm hne), hu]
  obtain ⟨rest', h3, _⟩ := share_front (Function.update f t []) u hu'
  have h4 : rest.Perm (b :: y ++ rest') := by
    have := (h2 []).symm.trans h3
    simpa using this
  refine ⟨x ++ (y ++ rest'), h1.trans ?_⟩
  refine List.Perm.cons a ?_
  refine (h4.append_left x).trans ?_
  rw [List.cons_append]
  exact List.perm_middle

/-- One phase of iterations that do not interfere. -/
theorem completes_phase {bad : Access L V → Access L V → Prop} {ps : List (Prog L V Unit)} {m m' : Mem L V} (h : Good bad ps m m') :
    Completes bad [ps] m m' := by
  intro T work hT hw
  obtain ⟨share, later, hwork, hperm, hlater⟩ := hw
  have hlater : ∀ t, later t = [] := hlater
  -- what a step does within the phase
  have hstep : ∀ (cur : Fin T → List (Prog L V Unit)) (mem : Mem L V) (s' : State L V T), Good bad ((List.finRange T).flatMap cur) mem m' →
      Step ⟨mem, fun t => [cur t]⟩ s' →
      (∃ cur', s'.work = (fun t => [cur' t]) ∧ Good bad ((List.finRange T).flatMap cur') s'.mem m' ∧
        stepsLeft ((List.finRange T).flatMap cur') s'.mem < stepsLeft ((List.finRange T).flatMap cur) mem) ∨
      (s'.work = (fun _ => []) ∧ s'.mem = m' ∧ ∀ t, cur t = []) := by
    intro cur mem s' hg hs
    have hupd : ∀ (t : Fin T) (x : List (Prog L V Unit)), Function.update (fun t => [cur t]) t [x] = fun u => [Function.update cur t x u] := by
      intro t x
      funext u
      by_cases hu : u = t
      · subst hu; simp
      · simp [Function.update_of_ne hu]
    cases hs with
    | next t qs rest hs =>
      simp only [List.cons.injEq] at hs
      obtain ⟨hs, rfl⟩ := hs
      obtain ⟨rest, h1, h2⟩ := share_front cur t hs
      left
      refine ⟨Function.update cur t qs, hupd t qs, ?_, ?_⟩
      · have hg' := hg.perm h1
        obtain ⟨mp, e, hg'', _⟩ := Good.tail (p := .ret ()) hg'
        cases e
        exact hg''.perm (h2 qs).symm
      · simp only [stepsLeft_perm h1, stepsLeft_perm (h2 qs)]
        simp [stepsLeft]
    | read t ℓ v k qs rest hs hm =>
      simp only [List.cons.injEq] at hs hm
      obtain ⟨hs, rfl⟩ := hs
      obtain ⟨rest, h1, h2⟩ := share_front cur t hs
      left
      have := Good.advance (p' := k v) (m1 := mem) (x := .read ℓ) (hg.perm h1) (by simp [runs, hm]) (by simp [accs, hm])
        (fun q _ mq hq _ => ⟨⟨mq, hq⟩, rfl⟩)
      refine ⟨Function.update cur t (k v :: qs), hupd t _, ?_, ?_⟩
      · refine Good.perm this.1 ?_
        exact List.Perm.symm (h2 (_ :: qs))
      · rw [stepsLeft_perm h1, stepsLeft_perm (h2 (_ :: qs))]
        exact this.2
    | write t ℓ v old k qs rest hs hm =>
      simp only [List.cons.injEq] at hs hm
      obtain ⟨hs, rfl⟩ := hs
      obtain ⟨rest, h1, h2⟩ := share_front cur t hs
      left
      have := Good.advance (p' := k) (m1 := Function.update mem ℓ (some v)) (x := .write ℓ v) (hg.perm h1) (by simp [runs, hm]) (by simp [accs, hm])
        (fun q _ mq hq hi => by
          obtain ⟨e1, e2⟩ := runs_update (v := v) q mem mq () old hm hq hi
          exact ⟨⟨_, e1⟩, e2⟩)
      refine ⟨Function.update cur t (k :: qs), hupd t _, ?_, ?_⟩
      · refine Good.perm this.1 ?_
        exact List.Perm.symm (h2 (_ :: qs))
      · rw [stepsLeft_perm h1, stepsLeft_perm (h2 (_ :: qs))]
        exact this.2
    | fetch t ℓ v f k qs rest hs hm =>
      simp only [List.cons.injEq] at hs hm
      obtain ⟨hs, rfl⟩ := hs
      obtain ⟨rest, h1, h2⟩ := share_front cur t hs
      left
      have := Good.advance (p' := k v) (m1 := Function.update mem ℓ (some (f v))) (x := .fetch ℓ) (hg.perm h1) (by simp [runs, hm]) (by simp [accs, hm])
        (fun q _ mq hq hi => by
          obtain ⟨e1, e2⟩ := runs_update' (v := f v) q mem mq () v hm hq hi
          exact ⟨⟨_, e1⟩, e2⟩)
      refine ⟨Function.update cur t (k v :: qs), hupd t _, ?_, ?_⟩
      · refine Good.perm this.1 ?_
        exact List.Perm.symm (h2 (_ :: qs))
      · rw [stepsLeft_perm h1, stepsLeft_perm (h2 (_ :: qs))]
        exact this.2
    | barrier rest h0 hs =>
      right
      simp only [List.cons.injEq] at hs
      refine ⟨?_, ?_, fun t => (hs t).1⟩
      · funext t; exact (hs t).2.symm
      · have : (List.finRange T).flatMap cur = [] := by
          rw [List.flatMap_eq_nil_iff]; exact fun t _ => (hs t).1
        have hs := hg.seq
        rw [this] at hs
        exact Option.some.inj hs
  have hstart : (⟨m, work⟩ : State L V T) = ⟨m, fun t => [share t]⟩ := by
    congr 1
    funext t; rw [hwork, hlater]
  have hdead : ∀ (mem : Mem L V), ¬ ∃ s', Step (⟨mem, fun _ => []⟩ : State L V T) s' := by
    rintro mem ⟨s', hs⟩
    cases hs with
    | next t _ _ hs => cases hs
    | read t _ _ _ _ _ hs => cases hs
    | write t _ _ _ _ _ _ hs => cases hs
    | fetch t _ _ _ _ _ _ hs => cases hs
    | barrier rest h0 hs => cases hs ⟨0, h0⟩
  rw [hstart]
  have hg0 := h.perm hperm.symm
  constructor
  · -- termination
    have : ∀ (n : Nat) (cur : Fin T → List (Prog L V Unit)) (mem : Mem L V), stepsLeft ((List.finRange T).flatMap cur) mem = n →
        Good bad ((List.finRange T).flatMap cur) mem m' → Acc (fun b a => Step a b) (⟨mem, fun t => [cur t]⟩ : State L V T) := by
      intro n
      induction n using Nat.strong_induction_on with
      | _ n ih =>
        intro cur mem hn hg
        constructor
        intro s' hs
        rcases hstep cur mem s' hg hs with ⟨cur', e, hg', hlt⟩ | ⟨e, _, _⟩
        · obtain ⟨mem', work'⟩ := s'
          simp only at e hg' hlt
          subst e
          exact ih _ (hn ▸ hlt) cur' mem' rfl hg'
        · obtain ⟨mem', work'⟩ := s'
          simp only at e
          subst e
          constructor
          intro s'' hs'
          exact absurd ⟨s'', hs'⟩ (hdead mem')
    exact this _ share m rfl hg0
  · intro s hs
    have hinv : (∃ cur, s.work = (fun t => [cur t]) ∧ Good bad ((List.finRange T).flatMap cur) s.mem m') ∨ (s.work = (fun _ => []) ∧ s.mem = m') := by
      induction hs with
      | refl => exact Or.inl ⟨share, rfl, hg0⟩
      | tail hab hs ih =>
        rename_i b c
        rcases ih with ⟨cur, e, hg⟩ | ⟨e, _⟩
        · obtain ⟨mem', work'⟩ := b
          subst e
          rcases hstep cur mem' c hg hs with ⟨cur', e, hg', _⟩ | ⟨e, e', _⟩
          · exact Or.inl ⟨cur', e, hg'⟩
          · exact Or.inr ⟨e, e'⟩
        · obtain ⟨mem', work'⟩ := b
          subst e
          exact absurd ⟨c, hs⟩ (hdead mem')
    obtain ⟨mem, wk⟩ := s
    rcases hinv with ⟨cur, e, hg⟩ | ⟨e, em⟩
    · simp only at e hg
      subst e
      constructor
      · rintro ⟨t, u, a, b, hne, ha, hb, hbad⟩
        simp only [State.nextOf] at ha hb
        cases hct : cur t with
        | nil => rw [hct] at ha; cases ha
        | cons p qs =>
          cases hcu : cur u with
          | nil => rw [hcu] at hb; cases hb
          | cons q rs =>
            rw [hct] at ha
            rw [hcu] at hb
            obtain ⟨rest, hp⟩ := share_two cur hne hct hcu
            have hg' := hg.perm hp
            obtain ⟨mp, ep⟩ := hg'.ok p (by simp)
            obtain ⟨mq, eq⟩ := hg'.ok q (by simp)
            exact ((List.pairwise_cons.1 hg'.fine).1 q (by simp) a (accs_next ep ha) b (accs_next eq hb)).1 hbad
      · intro hstuck
        exfalso
        apply hstuck
        by_cases hall : ∀ t, cur t = []
        · exact ⟨_, Step.barrier (fun _ => []) hT (fun t => by simp [hall t])⟩
        · push Not at hall
          obtain ⟨t, ht⟩ := hall
          cases hct : cur t with
          | nil => exact absurd hct ht
          | cons p qs =>
            obtain ⟨rest, h1, _⟩ := share_front cur t hct
            obtain ⟨mp, ep⟩ := (hg.perm h1).ok p (by simp)
            cases p with
            | ret a => exact ⟨_, Step.next t qs [] (by simp [hct])⟩
            | fail => cases ep
            | read ℓ k =>
              simp only [runs] at ep
              cases hm : mem ℓ with
              | none => rw [hm] at ep; cases ep
              | some v => exact ⟨_, Step.read t ℓ v k qs [] (by simp [hct]) hm⟩
            | write ℓ v k =>
              simp only [runs] at ep
              cases hm : mem ℓ with
              | none => rw [hm] at ep; cases ep
              | some old => exact ⟨_, Step.write t ℓ v old k qs [] (by simp [hct]) hm⟩
            | fetch ℓ f k =>
              simp only [runs] at ep
              cases hm : mem ℓ with
              | none => rw [hm] at ep; cases ep
              | some v => exact ⟨_, Step.fetch t ℓ v f k qs [] (by simp [hct]) hm⟩
    · simp only at e em
      subst e
      constructor
      · rintro ⟨t, u, a, b, hne, ha, _⟩
        cases ha
      · intro _
        exact ⟨fun t => rfl, em⟩

/-- Phases one after the other. -/
theorem completes_cons {bad : Access L V → Access L V → Prop} {ps : List (Prog L V Unit)} {phases : List (List (Prog L V Unit))} {m m1 m2 : Mem L V}
    (h1 : Completes bad [ps] m m1) (h2 : Completes bad phases m1 m2) : Completes bad (ps :: phases) m m2 := by
  intro T work hT hw
  obtain ⟨share, later, hwork, hperm, hlater⟩ := hw
  obtain ⟨a1, b1⟩ := h1 T (fun t => [share t]) hT ⟨share, fun _ => [], fun t => rfl, hperm, fun t => rfl⟩
  obtain ⟨a2, b2⟩ := h2 T later hT hlater
  have hstart : (⟨m, work⟩ : State L V T) = ⟨m, fun t => share t :: later t⟩ := by
    congr 1
    funext t; rw [hwork]
  rw [hstart]
  -- a step within the phase, or the barrier
  have hstep : ∀ (cur : Fin T → List (Prog L V Unit)) (mem : Mem L V) (s' : State L V T),
      Step ⟨mem, fun t => cur t :: later t⟩ s' →
      (∃ cur' : Fin T → List (Prog L V Unit), s'.work = (fun t => cur' t :: later t) ∧ Step (⟨mem, fun t => [cur t]⟩ : State L V T) ⟨s'.mem, fun t => [cur' t]⟩) ∨
      (s' = ⟨mem, later⟩ ∧ Step (⟨mem, fun t => [cur t]⟩ : State L V T) ⟨mem, fun _ => []⟩) := by
    intro cur mem s' hs
    have hupd : ∀ (t : Fin T) (x : List (Prog L V Unit)), Function.update (fun t => cur t :: later t) t (x :: later t) =
        fun u => Function.update cur t x u :: later u := by
      intro t x
      funext u
      by_cases hu : u = t
      · subst hu; simp
      · simp [Function.update_of_ne hu]
    have hupd' : ∀ (t : Fin T) (x : List (Prog L V Unit)), Function.update (fun t => [cur t]) t [x] = fun u => [Function.update cur t x u] := by
      intro t x
      funext u
      by_cases hu : u = t
      · subst hu; simp
      · simp [Function.update_of_ne hu]
    cases hs with
    | next t qs rest hs =>
      simp only [List.cons.injEq] at hs
      obtain ⟨hs, rfl⟩ := hs
      left
      refine ⟨Function.update cur t qs, hupd t qs, ?_⟩
      rw [← hupd']
      exact Step.next (s := (⟨mem, fun t => [cur t]⟩ : State L V T)) t qs [] (by simp [hs])
    | read t ℓ v k qs rest hs hm =>
      simp only [List.cons.injEq] at hs hm
      obtain ⟨hs, rfl⟩ := hs
      left
      refine ⟨Function.update cur t (k v :: qs), hupd t _, ?_⟩
      rw [← hupd']
      exact Step.read (s := (⟨mem, fun t => [cur t]⟩ : State L V T)) t ℓ v k qs [] (by simp [hs]) hm
    | write t ℓ v old k qs rest hs hm =>
      simp only [List.cons.injEq] at hs hm
      obtain ⟨hs, rfl⟩ := hs
      left
      refine ⟨Function.update cur t (k :: qs), hupd t _, ?_⟩
      rw [← hupd']
      exact Step.write (s := (⟨mem, fun t => [cur t]⟩ : State L V T)) t ℓ v old k qs [] (by simp [hs]) hm
    | fetch t ℓ v f k qs rest hs hm =>
      simp only [List.cons.injEq] at hs hm
      obtain ⟨hs, rfl⟩ := hs
      left
      refine ⟨Function.update cur t (k v :: qs), hupd t _, ?_⟩
      rw [← hupd']
      exact Step.fetch (s := (⟨mem, fun t => [cur t]⟩ : State L V T)) t ℓ v f k qs [] (by simp [hs]) hm
    | barrier rest h0 hs =>
      right
      simp only [List.cons.injEq] at hs
      have : rest = later := by funext t; exact (hs t).2.symm
      subst this
      exact ⟨rfl, Step.barrier (s := (⟨mem, fun t => [cur t]⟩ : State L V T)) (fun _ => []) h0 (fun t => by simp [(hs t).1])⟩
  have hdead : ∀ (mem : Mem L V), ¬ ∃ s', Step (⟨mem, fun _ => []⟩ : State L V T) s' := by
    rintro mem ⟨s', hs⟩
    cases hs with
    | next t _ _ hs => cases hs
    | read t _ _ _ _ _ hs => cases hs
    | write t _ _ _ _ _ _ hs => cases hs
    | fetch t _ _ _ _ _ _ hs => cases hs
    | barrier rest h0 hs => cases hs ⟨0, h0⟩
  have hend : ∀ mem, Steps (⟨m, fun t => [share t]⟩ : State L V T) ⟨mem, fun _ => []⟩ → mem = m1 :=
    fun mem hs => ((b1 _ hs).2 (hdead mem)).2
  constructor
  · have : ∀ x : State L V T, Acc (fun b a => Step a b) x → ∀ (cur : Fin T → List (Prog L V Unit)), x.work = (fun t => [cur t]) →
        Steps (⟨m, fun t => [share t]⟩ : State L V T) x → Acc (fun b a => Step a b) (⟨x.mem, fun t => cur t :: later t⟩ : State L V T) := by
      intro x hx
      induction hx with
      | intro x _ ih =>
        intro cur e hreach
        obtain ⟨mem, wk⟩ := x
        simp only at e
        subst e
        constructor
        intro s' hs
        rcases hstep cur mem s' hs with ⟨cur', e, hs'⟩ | ⟨rfl, hs'⟩
        · obtain ⟨mem', wk'⟩ := s'
          simp only at e
          subst e
          exact ih _ hs' cur' rfl (hreach.tail hs')
        · have := hend mem (hreach.tail hs')
          subst this
          exact a2
    exact this _ a1 share rfl Relation.ReflTransGen.refl
  · intro s hs
    have hinv : (∃ cur : Fin T → List (Prog L V Unit), s.work = (fun t => cur t :: later t) ∧ Steps (⟨m, fun t => [share t]⟩ : State L V T) ⟨s.mem, fun t => [cur t]⟩) ∨
        Steps (⟨m1, later⟩ : State L V T) s := by
      induction hs with
      | refl => exact Or.inl ⟨share, rfl, Relation.ReflTransGen.refl⟩
      | tail hab hs ih =>
        rename_i b c
        rcases ih with ⟨cur, e, hr⟩ | hr
        · obtain ⟨mem', work'⟩ := b
          subst e
          rcases hstep cur mem' c hs with ⟨cur', e, hs'⟩ | ⟨rfl, hs'⟩
          · exact Or.inl ⟨cur', e, hr.tail hs'⟩
          · have := hend mem' (hr.tail hs')
            subst this
            exact Or.inr Relation.ReflTransGen.refl
        · exact Or.inr (hr.tail hs)
    rcases hinv with ⟨cur, e, hr⟩ | hr
    · obtain ⟨mem, wk⟩ := s
      simp only at e hr
      subst e
      have hb := b1 _ hr
      constructor
      · rintro ⟨t, u, a, b, hne, ha, hb', hbad⟩
        refine hb.1 ⟨t, u, a, b, hne, ?_, ?_, hbad⟩
        · simp only [State.nextOf] at ha ⊢
          cases hct : cur t with
          | nil => rw [hct] at ha; cases ha
          | cons p qs => rw [hct] at ha; exact ha
        · simp only [State.nextOf] at hb' ⊢
          cases hct : cur u with
          | nil => rw [hct] at hb'; cases hb'
          | cons p qs => rw [hct] at hb'; exact hb'
      · intro hstuck
        exfalso
        by_cases hst : ∃ s', Step (⟨mem, fun t => [cur t]⟩ : State L V T) s'
        · obtain ⟨s', hs'⟩ := hst
          apply hstuck
          cases hs' with
          | next t qs rest hs =>
            simp only [List.cons.injEq] at hs
            exact ⟨_, Step.next t qs (later t) (by simp [hs.1])⟩
          | read t ℓ v k qs rest hs hm =>
            simp only [List.cons.injEq] at hs hm
            exact ⟨_, Step.read t ℓ v k qs (later t) (by simp [hs.1]) hm⟩
          | write t ℓ v old k qs rest hs hm =>
            simp only [List.cons.injEq] at hs hm
            exact ⟨_, Step.write t ℓ v old k qs (later t) (by simp [hs.1]) hm⟩
          | fetch t ℓ v f k qs rest hs hm =>
            simp only [List.cons.injEq] at hs hm
            exact ⟨_, Step.fetch t ℓ v f k qs (later t) (by simp [hs.1]) hm⟩
          | barrier rest h0 hs =>
            simp only [List.cons.injEq] at hs
            exact ⟨_, Step.barrier later h0 (fun t => by simp [(hs t).1])⟩
        · have := (hb.2 hst).1 ⟨0, hT⟩
          cases this
    · exact b2 s hr

/-- Nothing to do. -/
theorem completes_nil (bad : Access L V → Access L V → Prop) (m : Mem L V) : Completes bad [] m m := by
  intro T work hT hw
  have hw : ∀ t, work t = [] := hw
  have hwk : work = fun _ => [] := funext hw
  subst hwk
  have hdead : ¬ ∃ s', Step (⟨m, fun _ => []⟩ : State L V T) s' := by
    rintro ⟨s', hs⟩
    cases hs with
    | next t _ _ hs => cases hs
    | read t _ _ _ _ _ hs => cases hs
    | write t _ _ _ _ _ _ hs => cases hs
    | fetch t _ _ _ _ _ _ hs => cases hs
    | barrier rest h0 hs => cases hs ⟨0, h0⟩
  constructor
  · constructor
    intro s' hs
    exact absurd ⟨s', hs⟩ hdead
  · intro s hs
    have : s = ⟨m, fun _ => []⟩ := by
      rcases Relation.ReflTransGen.cases_head hs with h | ⟨s', h, _⟩
      · exact h.symm
      · exact absurd ⟨s', h⟩ hdead
    subst this
    refine ⟨?_, fun _ => ⟨fun _ => rfl, rfl⟩⟩
    rintro ⟨t, u, a, b, _, ha, _⟩
    cases ha

end HBT.Threads
