import Mathlib.Data.Fintype.Card
import Mathlib.Data.Fintype.Basic
/-!
# Processes that synchronise with barriers and do input or output

A process is a list of instructions still to be executed. `MPI_Barrier` is entered, and left when all
processes have entered it as often.
-/
namespace HBT.Spec

/-- Instructions: a barrier, begin and end of the reading or writing of files. -/
inductive Instr
  | barrier
  | begin
  | finish
  deriving DecidableEq, Repr

/-- One process: what it still has to do, how many barriers it has entered, whether it waits inside
one, and how often it has completed its input or output. -/
structure Proc where
  todo : List Instr
  entered : Nat := 0
  waiting : Bool := false
  completed : Nat := 0
  deriving DecidableEq, Repr

/-- The process is reading or writing. -/
def Proc.busy (p : Proc) : Prop := ∃ rest, p.todo = .finish :: rest

instance (p : Proc) : Decidable p.busy :=
  match h : p.todo with
  | .finish :: rest => isTrue ⟨rest, h⟩
  | [] => isFalse (fun ⟨_, e⟩ => by rw [h] at e; cases e)
  | .barrier :: _ => isFalse (fun ⟨_, e⟩ => by rw [h] at e; cases e)
  | .begin :: _ => isFalse (fun ⟨_, e⟩ => by rw [h] at e; cases e)

/-- One step of one process in any schedule. -/
inductive Step {P : Nat} (st : Fin P → Proc) : (Fin P → Proc) → Prop
  | begin (p : Fin P) (rest : List Instr) (h : (st p).todo = .begin :: rest) :
      Step st (Function.update st p { st p with todo := rest })
  | finish (p : Fin P) (rest : List Instr) (h : (st p).todo = .finish :: rest) :
      Step st (Function.update st p { st p with todo := rest, completed := (st p).completed + 1 })
  | enter (p : Fin P) (rest : List Instr) (h : (st p).todo = .barrier :: rest) (hw : (st p).waiting = false) :
      Step st (Function.update st p { st p with entered := (st p).entered + 1, waiting := true })
  | leave (p : Fin P) (rest : List Instr) (h : (st p).todo = .barrier :: rest) (hw : (st p).waiting = true)
      (all : ∀ q, (st p).entered ≤ (st q).entered) :
      Step st (Function.update st p { st p with todo := rest, waiting := false })

/-- What can be reached in any number of steps. -/
inductive Reach {P : Nat} (start : Fin P → Proc) : (Fin P → Proc) → Prop
  | refl : Reach start start
  | step (st st' : Fin P → Proc) (h : Reach start st) (hs : Step st st') : Reach start st'

end HBT.Spec
