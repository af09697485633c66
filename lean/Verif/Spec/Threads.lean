import Mathlib.Logic.Relation
import Mathlib.Data.List.FinRange
import Mathlib.Logic.Function.Basic
/-!
# Threads with shared memory

A small semantics of the part of OpenMP that the code uses: parallel regions with loops whose iterations are shared out to
a team of threads, barriers, and critical sections. `L` are the memory locations of a process, `V ℓ` the values
that location `ℓ` holds. Single reads and writes of locations are the steps; nothing is assumed about the relative
speed of the threads.
-/
namespace HBT.Threads

/-- The memory; `none` is a location that does not exist (an index out of range). -/
abbrev Mem (L : Type) (V : L → Type) := ∀ ℓ : L, Option (V ℓ)

/-- What one thread executes, up to computations that do not use shared memory. -/
inductive Prog (L : Type) (V : L → Type) (α : Type) : Type
  | ret (a : α)
  /-- undefined behaviour or an endless recursion -/
  | fail
  | read (ℓ : L) (k : V ℓ → Prog L V α)
  | write (ℓ : L) (v : V ℓ) (k : Prog L V α)
  /-- a location is read and changed in a critical section -/
  | fetch (ℓ : L) (f : V ℓ → V ℓ) (k : V ℓ → Prog L V α)

/-- One program after the other. -/
def Prog.bind {L : Type} {V : L → Type} {α β : Type} : Prog L V α → (α → Prog L V β) → Prog L V β
  | ret a, f => f a
  | fail, _ => fail
  | read ℓ k, f => read ℓ (fun v => (k v).bind f)
  | write ℓ v k, f => write ℓ v (k.bind f)
  | fetch ℓ g k, f => fetch ℓ g (fun v => (k v).bind f)

instance {L : Type} {V : L → Type} : Monad (Prog L V) where
  pure := Prog.ret
  bind := Prog.bind

/-- A single access. -/
inductive Access (L : Type) (V : L → Type) : Type
  | read (ℓ : L)
  | write (ℓ : L) (v : V ℓ)
  | fetch (ℓ : L)

variable {L : Type} {V : L → Type} {α : Type}

/-- Reading and writing one location. -/
def load (ℓ : L) : Prog L V (V ℓ) := .read ℓ .ret
@[inherit_doc load] def store (ℓ : L) (v : V ℓ) : Prog L V Unit := .write ℓ v (.ret ())

/-- A data race: the same location, not two reads, and not both in the critical section. -/
def Races : Access L V → Access L V → Prop
  | .read _, .read _ => False
  | .read ℓ, .write ℓ' _ => ℓ = ℓ'
  | .read ℓ, .fetch ℓ' => ℓ = ℓ'
  | .write ℓ _, .read ℓ' => ℓ = ℓ'
  | .write ℓ _, .write ℓ' _ => ℓ = ℓ'
  | .write ℓ _, .fetch ℓ' => ℓ = ℓ'
  | .fetch ℓ, .read ℓ' => ℓ = ℓ'
  | .fetch ℓ, .write ℓ' _ => ℓ = ℓ'
  | .fetch _, .fetch _ => False

/-- A data race other than two writes of the same value. -/
def Clashes (a b : Access L V) : Prop := Races a b ∧ ¬ ∃ ℓ v, a = .write ℓ v ∧ b = .write ℓ v

/-- What a program does next with the memory. -/
def Prog.next : Prog L V α → Option (Access L V)
  | ret _ => none
  | fail => none
  | read ℓ _ => some (.read ℓ)
  | write ℓ v _ => some (.write ℓ v)
  | fetch ℓ _ _ => some (.fetch ℓ)

/-- The memory, and what the threads have still to do: between one barrier and the next a list of iterations. -/
structure State (L : Type) (V : L → Type) (T : Nat) where
  mem : Mem L V
  work : Fin T → List (List (Prog L V Unit))

variable {T : Nat} [DecidableEq L]

/-- One step of the team. Accesses to locations that do not exist have no step. -/
inductive Step : State L V T → State L V T → Prop
  | next {s : State L V T} (t : Fin T) (ps : List (Prog L V Unit)) (rest : List (List (Prog L V Unit)))
      (hs : s.work t = (.ret () :: ps) :: rest) : Step s ⟨s.mem, Function.update s.work t (ps :: rest)⟩
  | read {s : State L V T} (t : Fin T) (ℓ : L) (v : V ℓ) (k : V ℓ → Prog L V Unit) (ps : List (Prog L V Unit))
      (rest : List (List (Prog L V Unit))) (hs : s.work t = (.read ℓ k :: ps) :: rest) (hm : s.mem ℓ = some v) :
      Step s ⟨s.mem, Function.update s.work t ((k v :: ps) :: rest)⟩
  | write {s : State L V T} (t : Fin T) (ℓ : L) (v old : V ℓ) (k : Prog L V Unit) (ps : List (Prog L V Unit))
      (rest : List (List (Prog L V Unit))) (hs : s.work t = (.write ℓ v k :: ps) :: rest) (hm : s.mem ℓ = some old) :
      Step s ⟨Function.update s.mem ℓ (some v), Function.update s.work t ((k :: ps) :: rest)⟩
  | fetch {s : State L V T} (t : Fin T) (ℓ : L) (v : V ℓ) (f : V ℓ → V ℓ) (k : V ℓ → Prog L V Unit) (ps : List (Prog L V Unit))
      (rest : List (List (Prog L V Unit))) (hs : s.work t = (.fetch ℓ f k :: ps) :: rest) (hm : s.mem ℓ = some v) :
      Step s ⟨Function.update s.mem ℓ (some (f v)), Function.update s.work t ((k v :: ps) :: rest)⟩
  | barrier {s : State L V T} (rest : Fin T → List (List (Prog L V Unit))) (h0 : 0 < T)
      (hs : ∀ t, s.work t = [] :: rest t) : Step s ⟨s.mem, rest⟩

/-- An execution of any number of steps. -/
def Steps : State L V T → State L V T → Prop := Relation.ReflTransGen Step

/-- What thread `t` does next with the memory. -/
def State.nextOf (s : State L V T) (t : Fin T) : Option (Access L V) :=
  match s.work t with
  | (p :: _) :: _ => p.next
  | _ => none

/-- Two threads are about to make accesses that are related by `bad`. -/
def Meets (bad : Access L V → Access L V → Prop) (s : State L V T) : Prop :=
  ∃ t u a b, t ≠ u ∧ s.nextOf t = some a ∧ s.nextOf u = some b ∧ bad a b

/-- The iterations of each phase are shared out to the threads, in any way and in any order. (A phase is what is between two barriers. A loop
with `nowait` is in the same phase as what follows it.) -/
def Shares : List (List (Prog L V Unit)) → (Fin T → List (List (Prog L V Unit))) → Prop
  | [], work => ∀ t, work t = []
  | phase :: phases, work => ∃ (share : Fin T → List (Prog L V Unit)) (later : Fin T → List (List (Prog L V Unit))),
      (∀ t, work t = share t :: later t) ∧ ((List.finRange T).flatMap share).Perm phase ∧ Shares phases later

/-- However many threads there are, however the iterations are shared out and however the threads are scheduled: two threads never make accesses
related by `bad` at the same time, the region comes to an end, and when nothing more can happen all work is done (no thread is stuck at undefined behaviour)
and the memory is `m'`. -/
def Completes (bad : Access L V → Access L V → Prop) (phases : List (List (Prog L V Unit))) (m m' : Mem L V) : Prop :=
  ∀ (T : Nat) (work : Fin T → List (List (Prog L V Unit))), 0 < T → Shares phases work →
    Acc (fun b a => Step a b) (⟨m, work⟩ : State L V T) ∧
    ∀ s, Steps ⟨m, work⟩ s → ¬ Meets bad s ∧ ((¬ ∃ s', Step s s') → (∀ t, s.work t = []) ∧ s.mem = m')

end HBT.Threads
