/-!
# Outcomes of C++ code

`Outcome α` is the result type of model functions whose C++ source can fail.
* `ok a`   : the call returns `a`;
* `ub`     : the C++ source executes undefined behaviour (out-of-range access,
             division by zero, use of an uninitialised value, ...);
* `abort`  : a failed `assert`, `exit(1)` or an uncaught exception;
* `diverge`: a loop ran out of the fuel the model gives it (the theorems show that the fuel
             suffices, or that the C++ loop does not terminate).
-/

namespace HBT

/-- What a piece of C++ code does: it returns, or one of the cases of the header of this file. (No line of its own; `assert` and
`exit(1)` are, for example, at src/io/gadget_io.cpp:177 and 168.) -/
inductive Outcome (α : Type) where
  | ok (a : α)
  | ub
  | abort
  | diverge
  deriving DecidableEq, Repr

namespace Outcome

/-- One statement after the other (the semicolon of C++, no line of its own, in all functions of HBT.cpp:16-95). -/
def bind {α β : Type} (x : Outcome α) (f : α → Outcome β) : Outcome β :=
  match x with
  | ok a => f a
  | ub => ub
  | abort => abort
  | diverge => diverge

/-- Notation for `bind`, the sequencing of statements (no line of its own, in all functions of HBT.cpp:16-95). -/
instance : Monad Outcome where
  pure := ok
  bind := bind

@[simp] theorem bind_ok {α β : Type} (a : α) (f : α → Outcome β) :
    (ok a >>= f) = f a := rfl
@[simp] theorem bind_ub {α β : Type} (f : α → Outcome β) :
    ((ub : Outcome α) >>= f) = ub := rfl
@[simp] theorem bind_abort {α β : Type} (f : α → Outcome β) :
    ((abort : Outcome α) >>= f) = abort := rfl
@[simp] theorem bind_diverge {α β : Type} (f : α → Outcome β) :
    ((diverge : Outcome α) >>= f) = diverge := rfl
@[simp] theorem pure_eq {α : Type} (a : α) : (pure a : Outcome α) = ok a := rfl

/-- Checked vector access `v[i]`: out of range is undefined behaviour.
For example `Subhalos[Group[0]]`, src/subhalo_tracking.cpp:831. -/
def get {α : Type} (v : List α) (i : Nat) : Outcome α :=
  match v[i]? with
  | some a => ok a
  | none => ub

@[simp] theorem get_of_lt {α : Type} {v : List α} {i : Nat} (h : i < v.length) :
    get v i = ok v[i] := by
  simp [get, h]

/-- Checked vector access with a signed index. For example `halo_snap.Halos[HostId]`, src/subhalo_tracking.cpp:897. -/
def getI {α : Type} (v : List α) (i : Int) : Outcome α :=
  if i < 0 then ub else get v i.toNat

/-- Checked vector store `v[i]=a`. For example `RootNestSize[haloid]=0`, src/subhalo_tracking.cpp:853. -/
def set {α : Type} (v : List α) (i : Nat) (a : α) : Outcome (List α) :=
  if i < v.length then ok (v.set i a) else ub

@[simp] theorem set_of_lt {α : Type} {v : List α} {i : Nat} {a : α} (h : i < v.length) :
    set v i a = ok (v.set i a) := by
  simp [set, h]

/-- `assert(c)`. For example src/io/gadget_io.cpp:177. -/
def assert (c : Bool) : Outcome Unit := if c then ok () else abort

@[simp] theorem assert_true : assert true = ok () := rfl
@[simp] theorem assert_false : assert false = abort := rfl

end Outcome
end HBT
