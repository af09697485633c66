import Verif.Model.SpmdMpi
import Verif.Model.Partition
/-!
# The particle redistribution as programs of the processes, src/snapshot_exchanger.cpp:30-188

The local parts are those of `Model/Partition.lean`. `r` is the number of the process that runs the program.
-/
namespace HBT.Spmd
open HBT.Model
variable {P : Nat} {D : Type}

/-- `MPI_Reduce(&x, &y, 1, τ, op, 0, newcomm)`. Part of `contigPart`, src/snapshot_exchanger.cpp:76-98. -/
def subReduce {τ : Type} (C : Comm P) (op : τ → τ → τ) (x : τ) : Prog P (Option τ) := .coll C (.reduce τ op 0) x .ret

/-- `MPI_Allreduce(&x, &y, 1, τ, op, newcomm)`. Part of `stridePart`, src/snapshot_exchanger.cpp:41-60. -/
def subAllreduce {τ : Type} (C : Comm P) (op : τ → τ → τ) (x : τ) : Prog P τ := .coll C (.allreduce τ op 1) [x] only

/-- src/snapshot_exchanger.cpp:76-98: `flag_contig` and `IdMin`; the process with rank 0 in `newcomm` gets the reduced values. -/
def contigPart (C : Comm P) (n : Nat) (r : Fin P) (ids : List Int) : Prog P (Bool × Int) :=
  match ids with
  | [] => .ret (false, 0)
  | a :: l => do
    let idMin ← subReduce C min a
    let idMax ← subReduce C max ((a :: l).getLast (by simp))
    if C.members.head? = some r then
      match idMin, idMax with
      | some mn, some mx => .ret (decide (mx - mn + 1 = n), mn)
      | _, _ => .fail
    else .ret (false, 0)

/-- `IsContiguousId`, src/snapshot_exchanger.cpp:68-104. -/
def contiguousId (n : Nat) (r : Fin P) (ids : List Int) : Prog P (Bool × Int) :=
  .split (if ids.isEmpty then 1 else 0) (fun C => do
    let loc ← contigPart C n r ids
    let flag ← allreduce1 (fun a b => a || b) loc.1
    let idMin ← allreduce1 Int.lor loc.2
    .ret (flag, idMin))

/-- src/snapshot_exchanger.cpp:41-60: by how much `offset` grows. -/
def stridePart (C : Comm P) (ids : List Int) (off : Nat) (trial : Option (Nat × Int)) : Prog P Nat :=
  match trial with
  | none => .ret 0
  | some (n, pid) => do
    let minId ← subAllreduce C min pid
    lift (strideAdvance minId ids off (some (n, pid)))

/-- `ParallelStride`, src/snapshot_exchanger.cpp:30-67; `fuel` bounds the number of iterations. -/
def stride (ids : List Int) : Nat → Nat → Nat → Prog P Nat
  | 0, _, _ => .fail
  | fuel + 1, steps, off =>
    if steps = 0 then .ret off
    else .split (if ids.length - off = 0 then 1 else 0) (fun C => do
      let trial ← lift (stridePid C.members.length steps ids off)
      let n ← stridePart C ids off trial
      let total ← allreduce1 (fun a b => a + b) n
      if total ≤ steps then stride ids fuel (steps - total) (off + n) else .fail)

/-- The loop over the ranks for other ids, src/snapshot_exchanger.cpp:135-142. -/
def strides (ids : List Int) (nremainder : Nat) : Nat → Nat → Nat → Nat → Prog P (List Nat × Nat)
  | 0, _, _, off => .ret ([], off)
  | left + 1, i, nnew, off => do
    let nnew' := if i = nremainder then nnew - 1 else nnew
    let off' ← stride ids (nnew' + 1) nnew' off
    let x ← strides ids nremainder left (i + 1) nnew' off'
    .ret (off :: x.1, x.2)

/-- `PartitionParticles`, src/snapshot_exchanger.cpp:106-145. -/
def partition (n : Nat) (r : Fin P) (ids : List Int) : Prog P (List Nat) := do
  let contig ← contiguousId n r ids
  if contig.1 then
    lift (contigLoop P (n % P) (ids.length + P + 2) ids 0 [] (n / P + 1) contig.2)
  else do
    let x ← strides ids (n % P) P 0 (n / P + 1) 0
    let _ ← lift (Outcome.assert (x.2 == ids.length))
    .ret x.1

/-- `SendSizes` as the array that `MPI_Alltoall` reads, src/snapshot_exchanger.cpp:167. -/
def sizeArray (sizes : List Nat) : Outcome (Fin P → Nat) := allRanks P (fun q => Outcome.get sizes q.val)

/-- The blocks that `MPI_Alltoallv` reads, src/snapshot_exchanger.cpp:173. -/
def partBlocks (parts : List (Particle D)) (offs sizes : List Nat) : Outcome (Fin P → List (Particle D)) :=
  allRanks P (fun q => do
    let off ← Outcome.get offs q.val
    let size ← Outcome.get sizes q.val
    slice parts off size)

/-- src/snapshot_exchanger.cpp:160-178: the particles received, in the order of the senders (`ReceiveOffsets` tile the buffer, C01). -/
def sendParts (parts : List (Particle D)) (offs : List Nat) : Prog P (List (Particle D)) := do
  let sizes ← lift (sendSizes parts.length offs)
  let counts ← lift (sizeArray sizes)
  let recvCounts ← alltoall counts
  let blocks ← lift (partBlocks parts offs sizes)
  let recvd ← alltoallv blocks recvCounts
  .ret (List.ofFn recvd).flatten

/-- `ExchangeParticles`, src/snapshot_exchanger.cpp:150-188: the new particles and `ProcessIdRanges`. -/
def exchangeParts (sort : List (Particle D) → List (Particle D)) (r : Fin P) (parts : List (Particle D)) :
    Prog P (List (Particle D) × List Int) := do
  let n ← allreduce1 (fun a b => a + b) parts.length
  let offs ← partition n r ((sort parts).map Particle.id)
  let received ← sendParts (sort parts) offs
  let mm ← lift (frontBack (sort received))
  let mins ← allgather mm.1
  let last ← bcast1 ⟨P - 1, Nat.sub_lt (Nat.lt_of_le_of_lt (Nat.zero_le _) r.isLt) Nat.one_pos⟩ (mm.2 + 1)
  .ret (sort received, mins ++ [last])

end HBT.Spmd
