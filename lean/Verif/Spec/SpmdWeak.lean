import Verif.Spec.Spmd
/-!
# Collective calls that do not synchronise

MPI does not say that a collective call makes the processes wait for each other: the root of a broadcast may go on before anybody else has arrived.
Here a call is carried out by messages: every member sends its contribution to those who need it, receives what it needs itself,
and goes on. It is left open whether a member also waits for members from which it gets nothing. `byMessages` replaces the
calls of a program in this way.
-/
namespace HBT.Spmd
variable {P : Nat} {α : Type}

/-- The number of elements that the member of rank `j`, with contribution `x`, has for the member of rank `i`. -/
def Kind.gives : (κ : Kind P) → (j : Nat) → κ.In → (i : Nat) → Nat
  | barrier, _, _, _ => 1
  | bcast _ root count, j, _, _ => if j = root then count else 0
  | reduce _ _ root, _, _, i => if i = root then 1 else 0
  | allreduce _ _ count, _, _, _ => count
  | scan _ _, j, _, i => if j ≤ i then 1 else 0
  | allgather _, _, _, _ => 1
  | alltoall _, _, _, _ => 1
  | alltoallv _, _, x, i => if h : i < P then (x.1 ⟨i, h⟩).length else 0
  | scatterv _ root, j, x, i => if j = root.val then (if h : i < P then (x.1 ⟨i, h⟩).length else 0) else 0

/-- The number of elements that the member of rank `i`, with contribution `x`, expects from the member of rank `j`. -/
def Kind.takes : (κ : Kind P) → (i : Nat) → κ.In → (j : Nat) → Nat
  | barrier, _, _, _ => 1
  | bcast _ root count, _, _, j => if j = root then count else 0
  | reduce _ _ root, i, _, _ => if i = root then 1 else 0
  | allreduce _ _ count, _, _, _ => count
  | scan _ _, i, _, j => if j ≤ i then 1 else 0
  | allgather _, _, _, _ => 1
  | alltoall _, _, _, _ => 1
  | alltoallv _, _, x, j => if h : j < P then x.2 ⟨j, h⟩ else 0
  | scatterv _ root, _, x, j => if j = root.val then x.2 else 0

/-- Broadcast: the buffer of the root. -/
def resBcast {τ : Type} (root count : Nat) (x : List τ) (got : Nat → Option (List τ)) : Option (List τ) :=
  if x.length = count then
    if count = 0 then some []
    else match got root with
      | some b => if b.length = count then some b else none
      | none => none
  else none

/-- Reduction of the contributions of the ranks below `n`. -/
def resFold {τ : Type} (op : τ → τ → τ) (n : Nat) (got : Nat → Option τ) : Option τ :=
  match (List.range n).mapM got with
  | some (a :: l) => some (l.foldl op a)
  | _ => none

/-- Reduction of buffers of the announced size. -/
def resAllreduce {τ : Type} (op : τ → τ → τ) (count n : Nat) (x : List τ) (got : Nat → Option (List τ)) : Option (List τ) :=
  if x.length = count then
    if count = 0 then some []
    else match (List.range n).mapM got with
      | some (a :: l) => if ∀ b ∈ a :: l, b.length = count then some (l.foldl (List.zipWith op) a) else none
      | _ => none
  else none

/-- The values for the member of rank `i`. -/
def resAlltoall {τ : Type} (i : Nat) (got : Nat → Option (Fin P → τ)) : Option (Fin P → τ) :=
  if hi : i < P then
    if h : ∀ s : Fin P, (got s.val).isSome then some (fun s => (got s.val).get (h s) ⟨i, hi⟩) else none
  else none

/-- The block for the member `i` in a contribution; nothing received means an empty block. -/
def blockFor {τ γ : Type} (i : Fin P) : Option ((Fin P → List τ) × γ) → List τ
  | some z => z.1 i
  | none => []

/-- The blocks for the member of rank `i`, of the sizes it has announced. -/
def resAlltoallv {τ : Type} (i : Nat) (x : (Fin P → List τ) × (Fin P → Nat)) (got : Nat → Option ((Fin P → List τ) × (Fin P → Nat))) :
    Option (Fin P → List τ) :=
  if hi : i < P then
    if ∀ s : Fin P, (blockFor ⟨i, hi⟩ (got s.val)).length = x.2 s then some (fun s => blockFor ⟨i, hi⟩ (got s.val)) else none
  else none

/-- The block of the root for the member of rank `i`. -/
def resScatterv {τ : Type} (root : Fin P) (i : Nat) (x : (Fin P → List τ) × Nat) (got : Nat → Option ((Fin P → List τ) × Nat)) :
    Option (List τ) :=
  if hi : i < P then
    if (blockFor ⟨i, hi⟩ (got root.val)).length = x.2 then some (blockFor ⟨i, hi⟩ (got root.val)) else none
  else none

/-- What the member of rank `i` with contribution `x` makes of the contributions `got` that it has received, by rank; `n` is the number of
members. -/
def Kind.result : (κ : Kind P) → (n i : Nat) → κ.In → (Nat → Option κ.In) → Option κ.Out
  | barrier, _, _, _, _ => some ()
  | bcast _ root count, _, _, x, got => resBcast root count x got
  | reduce _ op root, n, i, _, got => if i = root then (resFold op n got).map some else some none
  | allreduce _ op count, n, _, x, got => resAllreduce op count n x got
  | scan _ op, _, i, _, got => resFold op (i + 1) got
  | allgather _, n, _, _, got => (List.range n).mapM got
  | alltoall _, _, i, _, got => resAlltoall i got
  | alltoallv _, _, i, x, got => resAlltoallv i x got
  | scatterv _ root, _, i, x, got => resScatterv root i x got

/-- For which calls the member of rank `i` waits for the member of rank `j` even if it gets nothing from it. -/
abbrev Waits (P : Nat) := Comm P → Kind P → (i j : Nat) → Bool

/-- Sends, and then the rest of the program. -/
def sendThen : List (Fin P × Nat × Msg) → Prog P α → Prog P α
  | [], k => k
  | x :: xs, k => .isend x.1 x.2.1 x.2.2 (sendThen xs k)

/-- Receives one element from each of the given processes (given with their ranks), and then the rest of the program. -/
def gatherThen (τ : Type) (tag : Nat) : List (Fin P × Nat) → (Nat → Option τ) → ((Nat → Option τ) → Prog P α) → Prog P α
  | [], got, k => k got
  | q :: qs, got, k => .recv q.1 tag τ (fun m =>
      match m with
      | [z] => gatherThen τ tag qs (Function.update got q.2 (some z)) k
      | _ => .fail)

/-- The program with its collective calls carried out by messages. These have odd tags, other messages even ones. -/
def byMessages (w : Waits P) (r : Fin P) : Prog P α → Prog P α
  | .ret a => .ret a
  | .fail => .fail
  | .coll C κ x k =>
    let me := C.members.idxOf r
    if r ∈ C.members then
      sendThen ((C.members.zipIdx.filter (fun q => decide (0 < κ.gives me x q.2) || w C κ q.2 me)).map
          (fun q => (q.1, 2 * C.ctx + 1, ⟨κ.In, [x]⟩)))
        (gatherThen κ.In (2 * C.ctx + 1) (C.members.zipIdx.filter (fun q => decide (0 < κ.takes me x q.2) || w C κ me q.2)) (fun _ => none)
          (fun got => match κ.result C.members.length me x got with
            | some y => byMessages w r (k y)
            | none => .fail))
    else .fail
  | .split c k => .split c (fun C => byMessages w r (k C))
  | .isend d t m k => .isend d (2 * t) m (byMessages w r k)
  | .recv s t τ k => .recv s (2 * t) τ (fun m => byMessages w r (k m))
  | .waitall k => .waitall (byMessages w r k)

end HBT.Spmd
