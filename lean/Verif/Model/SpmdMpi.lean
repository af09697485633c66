import Verif.Model.Spmd
import Verif.Model.Mpi
/-!
# The transport routines as programs of the processes, src/mpi_wrapper.h

`Model/Mpi.lean` describes these routines for all processes at once. Here each process has its own program, which sees only its own
data and what it receives. The local parts are those of `Model/Mpi.lean`.
-/
namespace HBT.Spmd
open HBT.Model
variable {P : Nat} {α τ : Type}

/-! ## `MyAllToAll`, src/mpi_wrapper.h:124-190 -/

/-- The blocks of the send buffer that `MPI_Alltoallv` reads, given counts and displacements (src/mpi_wrapper.h:160, 176). -/
def sendBlocks (counts : Fin P → Nat) (buf : List α) : Outcome (Fin P → List α) :=
  allRanks P (fun r => do
    let d ← disps counts r
    slice buf d (counts r))

/-- What `MPI_Alltoallv` does to the receive buffer: the block of each sender is stored at its displacement (src/mpi_wrapper.h:161, 176). -/
def storeLoop (recvCounts : Fin P → Nat) (blocks : Fin P → List α) : List (Fin P) → List α → Outcome (List α)
  | [], buf => .ok buf
  | s :: ss, buf => do
    let rd ← disps recvCounts s
    let buf ← writeAt buf rd (blocks s)
    storeLoop recvCounts blocks ss buf

/-- One pass after the counts `sc` are fixed, src/mpi_wrapper.h:159-188. `its` are the input iterators, `outs` is what has been
written through the output iterators; the new values are returned. -/
def a2aBody (fill : α) (bufSize : Nat) (sc : Fin P → Nat) (its outs : Fin P → List α) :
    Prog P ((Fin P → List α) × (Fin P → List α)) := do
  let rc ← alltoall sc
  let total ← lift (fitsInt (compileOffsets (List.ofFn rc)).2)
  let packed ← lift (packLoop sc (List.finRange P) (List.replicate bufSize fill) its)
  let blocks ← lift (sendBlocks sc packed.1)
  let recvd ← alltoallv blocks rc
  let buf ← lift (storeLoop rc recvd (List.finRange P) (List.replicate total fill))
  let outs ← lift (unpackLoop rc buf (List.finRange P) outs)
  .ret (packed.2, outs)

/-- The loop `for(iloop=0;iloop<Nloop;iloop++)`, src/mpi_wrapper.h:149-189. -/
def a2aPasses (fill : α) (bufSize : Nat) (remainder : Fin P → Nat) : Nat → Nat → (Fin P → Nat) → (Fin P → List α) → (Fin P → List α) →
    Prog P (Fin P → List α)
  | 0, _, _, _, outs => .ret outs
  | n + 1, iloop, sendCounts, its, outs => do
    let sc := fun r => if iloop = remainder r then sendCounts r - 1 else sendCounts r
    let x ← a2aBody fill bufSize sc its outs
    a2aPasses fill bufSize remainder n (iloop + 1) sc x.1 x.2

/-- `MyAllToAll`, src/mpi_wrapper.h:124-190: `its r` is the sequence for process `r`, `counts r` its length; the result is the sequence
received from each process. -/
def allToAll (fill : α) (chunksize : Nat) (its : Fin P → List α) (counts : Fin P → Nat) : Prog P (Fin P → List α) := do
  let nloop ← allreduce1 max (ceilDiv (List.ofFn counts).sum chunksize)
  if nloop = 0 then .ret (fun _ => [])
  else a2aPasses fill (chunksize + P) (fun r => counts r % nloop) nloop 0 (fun r => counts r / nloop + 1) its (fun _ => [])

/-! ## `MyBcast`, src/mpi_wrapper.h:192-229 -/

/-- The packing, src/mpi_wrapper.h:214-221: only the root reads its input iterator; the others pass their buffer as it is. -/
def bcastPack (isRoot : Bool) (buffersize : Nat) (buffer it : List α) : Outcome (List α × List α) :=
  if isRoot then readIter it buffersize else .ok (buffer, it)

/-- The loop, src/mpi_wrapper.h:207-228. `buffer` is the content of the local buffer, which is kept from one pass to the next and loses its last
element when the size decreases (lines 209-213). -/
def bcastPasses (root : Fin P) (isRoot : Bool) (nremainder : Nat) : Nat → Nat → Nat → List α → List α → List α → Prog P (List α)
  | 0, _, _, _, _, out => .ret out
  | n + 1, iloop, buffersize, buffer, it, out => do
    let buffersize' := if iloop = nremainder then buffersize - 1 else buffersize
    let buffer' := if iloop = nremainder then buffer.dropLast else buffer
    let x ← lift (bcastPack isRoot buffersize' buffer' it)
    let buffer' ← bcast root buffersize' x.1
    bcastPasses root isRoot nremainder n (iloop + 1) buffersize' buffer' x.2 (out ++ buffer')

/-- `MyBcast`, src/mpi_wrapper.h:192-229, on process `r`: returns the new `ParticleCount` and what is written through the output
iterator. -/
def bcastList (fill : α) (chunksize : Nat) (root r : Fin P) (count : Nat) (it : List α) : Prog P (Nat × List α) := do
  let count ← bcast1 root count
  let nloop := ceilDiv count chunksize
  if nloop = 0 then .ret (count, [])
  else do
    let out ← bcastPasses root (decide (r = root)) (count % nloop) nloop 0 (count / nloop + 1)
      (List.replicate (count / nloop + 1) fill) it []
    .ret (count, out)

/-! ## `SyncContainer`, src/mpi_wrapper.h:65-81 -/

/-- The check of src/mpi_wrapper.h:71-75, on the root only. -/
def syncCheck (isRoot : Bool) (len : Int) : Outcome Unit := if isRoot && decide (len ≥ 2147483647) then .abort else .ok ()

/-- The count as MPI and `resize` take it; a negative length is an error. src/mpi_wrapper.h:76-80. -/
def syncCount (len : Int) : Outcome Nat := if len < 0 then .abort else .ok len.toNat

/-- `x.resize(n)`: cut off, or filled up with `fill`. src/mpi_wrapper.h:79. -/
def resize (fill : α) (n : Nat) (x : List α) : List α := x.take n ++ List.replicate (n - x.length) fill

/-- `SyncContainer` on process `r`. src/mpi_wrapper.h:65-81. -/
def syncList (fill : α) (root r : Fin P) (x : List α) : Prog P (List α) := do
  let len := sizeToInt x.length
  let _ ← lift (syncCheck (decide (r = root)) len)
  let len ← bcast1 root len
  let n ← lift (syncCount len)
  bcast root n (if r = root then x else resize fill n x)

end HBT.Spmd
