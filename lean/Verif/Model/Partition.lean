import Verif.Spec.Types
import Verif.Model.Mpi
import Mathlib.Data.Int.Bitwise
/-!
# Model of the particle redistribution, src/snapshot_exchanger.cpp:30-188

`ids r` are the ids of the particles on rank `r`, in the order of the vector. Counts and ids are
unbounded integers (the code keeps offsets in `int`, so a rank must hold fewer than 2^31 particles).
-/
namespace HBT.Model
variable {D : Type}

/-! ## `IsContiguousId`, lines 68-104 -/

/-- `MPI_Reduce(MPI_MIN)` over the ranks with particles of their first ids; `a` is the root's own.
Part of `contigLocal`, src/snapshot_exchanger.cpp:76-98. -/
def reduceMin {P : Nat} (ids : Fin P → List Int) (a : Int) : Int :=
  ((List.finRange P).filterMap (fun r => (ids r).head?)).foldl min a

/-- `MPI_Reduce(MPI_MAX)` over the ranks with particles of their last ids; `a` is the root's own.
Part of `contigLocal`, src/snapshot_exchanger.cpp:76-98. -/
def reduceMax {P : Nat} (ids : Fin P → List Int) (a : Int) : Int :=
  ((List.finRange P).filterMap (fun r => (ids r).getLast?)).foldl max a

/-- `flag_contig` and `IdMin` on rank `r` before the final reductions, src/snapshot_exchanger.cpp:76-98. The root of the
sub-communicator is the first rank with particles. `n` is `NumberOfParticlesOnAllNodes`. -/
def contigLocal {P : Nat} (n : Nat) (ids : Fin P → List Int) (r : Fin P) : Bool × Int :=
  match ids r with
  | [] => (false, 0)
  | a :: l =>
    if (List.finRange P).find? (fun s => !(ids s).isEmpty) = some r then
      let idMin := reduceMin ids a
      let idMax := reduceMax ids ((a :: l).getLast (by simp))
      (decide (idMax - idMin + 1 = n), idMin)
    else (false, 0)

/-- `IsContiguousId`, src/snapshot_exchanger.cpp:68-104, on all ranks: the returned flag (`MPI_LOR`) and `GlobalIdMin`
(`MPI_BOR`), both results of an `MPI_Allreduce`. -/
def isContiguousId {P : Nat} (n : Nat) (ids : Fin P → List Int) : Fin P → Bool × Int :=
  fun _ =>
    let loc := (List.finRange P).map (contigLocal n ids)
    ((loc.map Prod.fst).foldl (fun a b => a || b) false, (loc.map Prod.snd).foldl Int.lor 0)

/-! ## `ParallelStride`, lines 30-67 -/

/-- src/snapshot_exchanger.cpp:42-46 on one rank: the trial stride and the id it ends at; `none` for a rank without
particles left. `k` is `newcomm_size`. -/
def stridePid (k steps : Nat) (ids : List Int) (off : Nat) : Outcome (Option (Nat × Int)) :=
  let nmax := ids.length - off
  if nmax = 0 then .ok none
  else if k = 0 then .ub
  else
    let n := steps / k
    let n := if n * k < steps then n + 1 else n
    let n := if n > nmax then nmax else n
    if off + n = 0 then .ub
    else do
      let pid ← Outcome.get ids (off + n - 1)
      .ok (some (n, pid))

/-- `while(Particles[offset].Id<MinId) offset++`, src/snapshot_exchanger.cpp:53-54: number of steps taken. -/
def fastForward (minId : Int) : List Int → Outcome Nat
  | [] => .ub
  | a :: l => if a < minId then do
      let n ← fastForward minId l
      .ok (n + 1)
    else .ok 0

/-- src/snapshot_exchanger.cpp:48-60 on one rank: by how much `offset` grows. -/
def strideAdvance (minId : Int) (ids : List Int) (off : Nat) : Option (Nat × Int) → Outcome Nat
  | none => .ok 0
  | some (n, pid) => if pid > minId then fastForward minId (ids.drop off) else .ok n

/-- `MPI_Allreduce(MPI_MIN)` over the ranks that take part. Part of `strideStep`, src/snapshot_exchanger.cpp:34-66. -/
def minOfPids : List Int → Int
  | [] => 0
  | a :: l => l.foldl min a

/-- Body of the loop of `ParallelStride`, src/snapshot_exchanger.cpp:34-66, on all ranks; returns the increments. -/
def strideStep {P : Nat} (ids : Fin P → List Int) (steps : Nat) (off : Fin P → Nat) :
    Outcome (Fin P → Nat) := do
  let k := ((List.finRange P).filter (fun r => (ids r).length - off r ≠ 0)).length
  let trial ← allRanks P (fun r => stridePid k steps (ids r) (off r))
  let minId := minOfPids ((List.finRange P).filterMap (fun r => (trial r).map Prod.snd))
  allRanks P (fun r => strideAdvance minId (ids r) (off r) (trial r))

/-- `ParallelStride`, src/snapshot_exchanger.cpp:30-67, on all ranks. A total increment above `steps` would make `steps`
negative; that case is outside the model (`diverge`), the theorems show that it does not arise. -/
def parallelStride {P : Nat} (ids : Fin P → List Int) :
    Nat → Nat → (Fin P → Nat) → Outcome (Fin P → Nat)
  | 0, _, _ => .diverge
  | fuel + 1, steps, off =>
    if steps = 0 then .ok off
    else do
      let inc ← strideStep ids steps off
      let n := (List.ofFn inc).sum
      if n ≤ steps then parallelStride ids fuel (steps - n) (fun r => off r + inc r)
      else .diverge

/-! ## `PartitionParticles`, lines 106-145 -/

/-- The loop for contiguous ids, src/snapshot_exchanger.cpp:114-128, on one rank: `rest` are the ids from `pid` on, `offs`
the entries of `offset` filled so far (`rank` is its length; the vector has `P+1` entries). -/
def contigLoop (P nremainder : Nat) :
    Nat → List Int → Nat → List Nat → Nat → Int → Outcome (List Nat)
  | 0, _, _, _, _, _ => .diverge
  | _ + 1, [], pid, offs, _, _ => .ok (offs ++ List.replicate (P - offs.length) pid)
  | fuel + 1, id :: rest, pid, offs, nnew, upper =>
    if id < upper then contigLoop P nremainder fuel rest (pid + 1) offs nnew upper
    else if offs.length ≥ P + 1 then .ub
    else
      let nnew := if offs.length = nremainder then nnew - 1 else nnew
      contigLoop P nremainder fuel (id :: rest) pid (offs ++ [pid]) nnew (upper + nnew)

/-- The loop for other ids, src/snapshot_exchanger.cpp:133-142, on all ranks, from rank `i` on (`left` ranks to go):
returns for each rank the list of offsets, and the final offset. -/
def strideRanks {P : Nat} (ids : Fin P → List Int) (nremainder : Nat) :
    Nat → Nat → Nat → (Fin P → Nat) → Outcome ((Fin P → List Nat) × (Fin P → Nat))
  | 0, _, _, off => .ok (fun _ => [], off)
  | left + 1, i, nnew, off => do
    let nnew := if i = nremainder then nnew - 1 else nnew
    let off' ← parallelStride ids (nnew + 1) nnew off
    let (rest, last) ← strideRanks ids nremainder left (i + 1) nnew off'
    .ok (fun r => off r :: rest r, last)

/-- `PartitionParticles`, src/snapshot_exchanger.cpp:106-145, on all ranks: entries `0..P-1` of `offset` on each rank. -/
def partitionParticles {P : Nat} (n : Nat) (ids : Fin P → List Int) : Outcome (Fin P → List Nat) :=
  if P = 0 then .ub
  else
    let nremainder := n % P
    let nnew := n / P + 1
    let contig := isContiguousId n ids
    if ∀ r, (contig r).1 then
      allRanks P (fun r => contigLoop P nremainder ((ids r).length + P + 2) (ids r) 0 [] nnew (contig r).2)
    else if ∀ r, (contig r).1 = false then do
      let (offs, last) ← strideRanks ids nremainder P 0 nnew (fun _ => 0)
      let _ ← allRanks P (fun r => Outcome.assert (last r == (ids r).length))
      .ok offs
    else .ub

/-! ## `ExchangeParticles`, lines 150-188 -/

/-- `SendSizes`, src/snapshot_exchanger.cpp:162-164: differences of successive offsets, the last one up to the end. A
negative size is an MPI error. -/
def sendSizes (n : Nat) : List Nat → Outcome (List Nat)
  | [] => .ok []
  | [a] => if a ≤ n then .ok [n - a] else .abort
  | a :: b :: l => if a ≤ b then do
      let rest ← sendSizes n (b :: l)
      .ok ((b - a) :: rest)
    else .abort

/-- `MPI_Alltoallv`, src/snapshot_exchanger.cpp:169-177, seen from receiver `r`: the blocks of all senders, in rank order,
because `ReceiveOffsets` tile the receive buffer (C01). -/
def receiveBlocks {P : Nat} (parts : Fin P → List (Particle D)) (offs sizes : Fin P → List Nat)
    (r : Fin P) : Outcome (List (Particle D)) := do
  let blocks ← allRanks P (fun s => do
    let off ← Outcome.get (offs s) r.val
    let size ← Outcome.get (sizes s) r.val
    slice (parts s) off size)
  .ok (List.ofFn blocks).flatten

/-- `Particles.front().Id` and `Particles.back().Id`, src/snapshot_exchanger.cpp:182-183; on an empty vector undefined. -/
def frontBack : List (Particle D) → Outcome (Int × Int)
  | [] => .ub
  | a :: l => .ok (a.id, ((a :: l).getLast (by simp)).id)

/-- `ProcessIdRanges`, src/snapshot_exchanger.cpp:184-187: the first ids of all ranks (`MPI_Allgather`), then the last id
of the last rank plus one (`MPI_Bcast` from rank `P-1`). -/
def idRanges {P : Nat} (minMax : Fin P → Int × Int) : Outcome (List Int) :=
  match (List.ofFn minMax).getLast? with
  | none => .ub
  | some m => .ok (List.ofFn (fun r => (minMax r).1) ++ [m.2 + 1])

/-- `ExchangeParticles`, src/snapshot_exchanger.cpp:150-188, on all ranks: the new particles of each rank and
`ProcessIdRanges`. -/
def exchangeParticles {P : Nat} (sort : List (Particle D) → List (Particle D))
    (parts : Fin P → List (Particle D)) : Outcome ((Fin P → List (Particle D)) × List Int) := do
  let n := (List.ofFn (fun r => (parts r).length)).sum
  let parts := fun r => sort (parts r)
  let offs ← partitionParticles n (fun r => (parts r).map Particle.id)
  let sizes ← allRanks P (fun r => sendSizes (parts r).length (offs r))
  let received ← allRanks P (receiveBlocks parts offs sizes)
  let new := fun r => sort (received r)
  let minMax ← allRanks P (fun r => frontBack (new r))
  let ranges ← idRanges minMax
  .ok (new, ranges)

end HBT.Model
