import Mathlib.Logic.Relation
import Mathlib.Data.List.FinRange
/-!
# Message passing programs and their executions

A small semantics of the part of MPI that the code uses. `P` processes each run a program of their own; nothing is
assumed about their relative speed. A collective call of a communicator takes place when all its members have
arrived at a call of the same kind on the same communicator, with the same root, operation and count, and with
message sizes that fit together. A message is kept in a channel until it is received; channels are first-in first-out for each
sender, receiver and tag.
-/
namespace HBT.Spmd

/-- A communicator: its context number, and its members (numbers of processes) in the order of their ranks in it. -/
structure Comm (P : Nat) where
  ctx : Nat
  members : List (Fin P)

/-- `MPI_COMM_WORLD`. -/
def Comm.world (P : Nat) : Comm P := ⟨0, List.finRange P⟩

/-- The kinds of collective calls; two calls match when they are of the same kind. Roots are ranks in the
communicator. -/
inductive Kind (P : Nat) : Type 1
  | barrier
  | bcast (τ : Type) (root count : Nat)
  | reduce (τ : Type) (op : τ → τ → τ) (root : Nat)
  | allreduce (τ : Type) (op : τ → τ → τ) (count : Nat)
  | scan (τ : Type) (op : τ → τ → τ)
  | allgather (τ : Type)
  | alltoall (τ : Type)
  | alltoallv (τ : Type)
  | scatterv (τ : Type) (root : Fin P)

/-- What a process passes to a call: a value, a buffer, or (for the calls with varying counts) the blocks for all
processes and the number of elements it expects (from each process). -/
def Kind.In {P : Nat} : Kind P → Type
  | barrier => Unit
  | bcast τ _ _ => List τ
  | reduce τ _ _ => τ
  | allreduce τ _ _ => List τ
  | scan τ _ => τ
  | allgather τ => τ
  | alltoall τ => Fin P → τ
  | alltoallv τ => (Fin P → List τ) × (Fin P → Nat)
  | scatterv τ _ => (Fin P → List τ) × Nat

/-- What a process gets from a call. -/
def Kind.Out {P : Nat} : Kind P → Type
  | barrier => Unit
  | bcast τ _ _ => List τ
  | reduce τ _ _ => Option τ
  | allreduce τ _ _ => List τ
  | scan τ _ => τ
  | allgather τ => List τ
  | alltoall τ => Fin P → τ
  | alltoallv τ => Fin P → List τ
  | scatterv τ _ => List τ

/-- Broadcast: everybody gets the content of the buffer of the root. All buffers have the announced size. -/
def semBcast {τ : Type} (root count : Nat) (xs : List (List τ)) : Option (List (List τ)) :=
  match xs[root]? with
  | some buf => if ∀ b ∈ xs, b.length = count then some (xs.map (fun _ => buf)) else none
  | none => none

/-- Reduction of one value per process; the root gets the result. -/
def semReduce {τ : Type} (op : τ → τ → τ) (root : Nat) (xs : List τ) : Option (List (Option τ)) :=
  match xs with
  | [] => none
  | a :: l =>
    if root < xs.length then some ((List.range xs.length).map (fun i => if i = root then some (l.foldl op a) else none))
    else none

/-- Reduction of buffers of the announced size, element by element; everybody gets the result. -/
def semAllreduce {τ : Type} (op : τ → τ → τ) (count : Nat) (xs : List (List τ)) : Option (List (List τ)) :=
  match xs with
  | [] => none
  | a :: l => if ∀ b ∈ xs, b.length = count then some (xs.map (fun _ => l.foldl (List.zipWith op) a)) else none

/-- Inclusive prefix reduction. -/
def semScan {τ : Type} (op : τ → τ → τ) (xs : List τ) : Option (List τ) :=
  match xs with
  | [] => none
  | a :: l => some (l.scanl op a)

/-- Process `r` gets from process `s` the value that `s` has for `r`. -/
def semAlltoall {P : Nat} {τ : Type} (xs : List (Fin P → τ)) : Option (List (Fin P → τ)) :=
  if h : xs.length = P then some (List.ofFn (fun r : Fin P => fun s : Fin P => xs[s] r)) else none

/-- The same with blocks, whose sizes are those that the receivers announce. -/
def semAlltoallv {P : Nat} {τ : Type} (xs : List ((Fin P → List τ) × (Fin P → Nat))) : Option (List (Fin P → List τ)) :=
  if h : xs.length = P then
    if ∀ r s : Fin P, xs[r].2 s = (xs[s].1 r).length then some (List.ofFn (fun r : Fin P => fun s : Fin P => xs[s].1 r))
    else none
  else none

/-- Process `r` gets the block that the root has for it, whose size is that announced by `r`. -/
def semScatterv {P : Nat} {τ : Type} (root : Fin P) (xs : List ((Fin P → List τ) × Nat)) : Option (List (List τ)) :=
  if h : xs.length = P then
    if ∀ r : Fin P, xs[r].2 = (xs[root].1 r).length then some (List.ofFn (fun r : Fin P => xs[root].1 r))
    else none
  else none

/-- The effect of a call: from what the members pass, in the order of their ranks, to what they get; `none` if the
arguments do not fit together. -/
def Kind.sem {P : Nat} : (κ : Kind P) → List κ.In → Option (List κ.Out)
  | barrier, xs => some (xs.map (fun _ => ()))
  | bcast _ root count, xs => semBcast root count xs
  | reduce _ op root, xs => semReduce op root xs
  | allreduce _ op count, xs => semAllreduce op count xs
  | scan _ op, xs => semScan op xs
  | allgather _, xs => some (xs.map (fun _ => xs))
  | alltoall _, xs => semAlltoall xs
  | alltoallv _, xs => semAlltoallv xs
  | scatterv _ root, xs => semScatterv root xs

/-- A message with the type of its elements. -/
abbrev Msg := Σ τ : Type, List τ

/-- The program of one process, up to its local computations. -/
inductive Prog (P : Nat) (α : Type) : Type 1
  /-- the process is done -/
  | ret (a : α)
  /-- the process has crashed -/
  | fail
  /-- a collective call on a communicator -/
  | coll (C : Comm P) (κ : Kind P) (x : κ.In) (k : κ.Out → Prog P α)
  /-- `MPI_Comm_split` of the world: the processes with the same color form a communicator -/
  | split (color : Nat) (k : Comm P → Prog P α)
  /-- `MPI_Isend` -/
  | isend (dst : Fin P) (tag : Nat) (m : Msg) (k : Prog P α)
  /-- `MPI_Recv` of elements of type `τ` (their number is that of the message, as found with `MPI_Probe`) -/
  | recv (src : Fin P) (tag : Nat) (τ : Type) (k : List τ → Prog P α)
  /-- `MPI_Waitall` for the sends: waits until each message of this process has been received or
  buffered by the library -/
  | waitall (k : Prog P α)

/-- The programs of all processes, the messages on their way (sender, receiver, tag), and the last context number used. -/
structure State (P : Nat) (α : Type) where
  progs : Fin P → Prog P α
  chan : Fin P → Fin P → Nat → List Msg
  ctx : Nat

variable {P : Nat} {α : Type}

/-- One step of the system. `bf` says which messages the library buffers: only for those does a send come to its end before the message
is received. -/
inductive Step (bf : Msg → Prop) : State P α → State P α → Prop
  | coll {s s' : State P α} (C : Comm P) (κ : Kind P) (x : Fin P → κ.In) (k : Fin P → κ.Out → Prog P α) (y : Fin P → κ.Out)
      (hne : C.members ≠ []) (hnd : C.members.Nodup) (hs : ∀ r ∈ C.members, s.progs r = .coll C κ (x r) (k r))
      (hy : κ.sem (C.members.map x) = some (C.members.map y))
      (hs' : ∀ r ∈ C.members, s'.progs r = k r (y r)) (hrest : ∀ r, r ∉ C.members → s'.progs r = s.progs r)
      (hchan : s'.chan = s.chan) (hctx : s'.ctx = s.ctx) : Step bf s s'
  | split {s s' : State P α} (color : Fin P → Nat) (k : Fin P → Comm P → Prog P α) (hne : 0 < P)
      (hs : ∀ r, s.progs r = .split (color r) (k r))
      (hs' : ∀ r, s'.progs r = k r ⟨s.ctx + 1, (List.finRange P).filter (fun q => decide (color q = color r))⟩)
      (hchan : s'.chan = s.chan) (hctx : s'.ctx = s.ctx + 1) : Step bf s s'
  | isend {s s' : State P α} (r dst : Fin P) (tag : Nat) (m : Msg) (k : Prog P α) (hs : s.progs r = .isend dst tag m k)
      (hs' : s'.progs = Function.update s.progs r k)
      (hchan : ∀ a b t, s'.chan a b t = if a = r ∧ b = dst ∧ t = tag then s.chan a b t ++ [m] else s.chan a b t)
      (hctx : s'.ctx = s.ctx) : Step bf s s'
  | recv {s s' : State P α} (r src : Fin P) (tag : Nat) (τ : Type) (k : List τ → Prog P α) (m : List τ) (rest : List Msg)
      (hs : s.progs r = .recv src tag τ k) (hm : s.chan src r tag = ⟨τ, m⟩ :: rest)
      (hs' : s'.progs = Function.update s.progs r (k m))
      (hchan : ∀ a b t, s'.chan a b t = if a = src ∧ b = r ∧ t = tag then rest else s.chan a b t)
      (hctx : s'.ctx = s.ctx) : Step bf s s'
  | waitall {s s' : State P α} (r : Fin P) (k : Prog P α) (hs : s.progs r = .waitall k) (hsent : ∀ dst tag, ∀ m ∈ s.chan r dst tag, bf m)
      (hs' : s'.progs = Function.update s.progs r k) (hchan : s'.chan = s.chan) (hctx : s'.ctx = s.ctx) : Step bf s s'

/-- An execution of any number of steps. -/
def Steps (bf : Msg → Prop) : State P α → State P α → Prop := Relation.ReflTransGen (Step bf)

/-- All processes at the beginning; no message is on its way. -/
def start (ctx : Nat) (p : Fin P → Prog P α) : State P α := ⟨p, fun _ _ _ => [], ctx⟩

/-- All processes are done with the given results, and no message is left. -/
def Done (res : Fin P → α) (s : State P α) : Prop :=
  (∀ r, s.progs r = .ret (res r)) ∧ ∀ a b t, s.chan a b t = []

/-- However the processes are scheduled and whatever the library buffers, the programs come to an end, and when nothing more can happen all processes are done with the given
results: there is no deadlock, no mismatched call, no crash and no message left. -/
def Completes (p : Fin P → Prog P α) (res : Fin P → α) : Prop :=
  ∀ bf ctx, Acc (fun b a => Step bf a b) (start ctx p) ∧
    ∀ s, Steps bf (start ctx p) s → (¬ ∃ s', Step bf s s') → Done res s

end HBT.Spmd
