import Verif.Model.Outcome
import Verif.Model.MyMath
import Mathlib.Data.Fin.Tuple.Basic
import Mathlib.Data.List.FinRange
/-!
# Model of src/mpi_wrapper.h and src/mpi_wrapper.cpp

One model value describes the data of all `P` ranks: `Fin P → _` maps a rank to its local data.
MPI collectives are modelled by their specification. All ranks run the same code (SPMD).
-/
namespace HBT.Model
variable {α : Type}

/-- Run the same local code on every rank. Part of `a2aTransfer`, src/mpi_wrapper.h:159-188. -/
def allRanks : (P : Nat) → (Fin P → Outcome α) → Outcome (Fin P → α)
  | 0, _ => .ok Fin.elim0
  | P + 1, f => do
    let a ← f 0
    let g ← allRanks P (fun i => f i.succ)
    .ok (Fin.cons a g)

/-- Copy `xs` into `buf` at offset `off`; beyond the end is undefined behaviour. Part of `packLoop`, src/mpi_wrapper.h:164-174. -/
def writeAt (buf : List α) (off : Nat) (xs : List α) : Outcome (List α) :=
  if off + xs.length ≤ buf.length then .ok (buf.take off ++ xs ++ buf.drop (off + xs.length))
  else .ub

/-- Read `n` entries of `buf` at offset `off`. Part of `unpackLoop`, src/mpi_wrapper.h:178-188. -/
def slice (buf : List α) (off n : Nat) : Outcome (List α) :=
  if off + n ≤ buf.length then .ok ((buf.drop off).take n) else .ub

/-- Advance an input iterator `n` times, reading each element; running past the end is undefined.
Returns what was read and the advanced iterator. Part of `packLoop`, src/mpi_wrapper.h:164-174. -/
def readIter (it : List α) (n : Nat) : Outcome (List α × List α) :=
  if n ≤ it.length then .ok (it.take n, it.drop n) else .ub

/-- A count that must fit in a (32-bit) `int`. Part of `a2aTransfer`, src/mpi_wrapper.h:159-188. -/
def fitsInt (n : Nat) : Outcome Nat := if n < 2 ^ 31 then .ok n else .ub

/-- Displacements of per-rank counts: `CompileOffsets`, src/mpi_wrapper.h:160-161. -/
def disps {P : Nat} (counts : Fin P → Nat) (r : Fin P) : Outcome Nat :=
  Outcome.get (compileOffsets (List.ofFn counts)).1 r.val

/-- The pack loop for the destination ranks in `rs`, src/mpi_wrapper.h:164-174. -/
def packLoop {P : Nat} (counts : Fin P → Nat) :
    List (Fin P) → List α → (Fin P → List α) → Outcome (List α × (Fin P → List α))
  | [], buf, its => .ok (buf, its)
  | r :: rs, buf, its => do
    let d ← disps counts r
    let (xs, rest) ← readIter (its r) (counts r)
    let buf ← writeAt buf d xs
    packLoop counts rs buf (Function.update its r rest)

/-- `MPI_Alltoallv` seen from receiver `r`: from each sender `s` in order, the block at the
sender's displacement is stored at the receiver's displacement. Part of `a2aTransfer`, src/mpi_wrapper.h:159-188. -/
def alltoallvLoop {P : Nat} (r : Fin P) (sendBuf : Fin P → List α) (sendCounts : Fin P → Fin P → Nat)
    (recvCounts : Fin P → Nat) : List (Fin P) → List α → Outcome (List α)
  | [], buf => .ok buf
  | s :: ss, buf => do
    let sd ← disps (sendCounts s) r
    let xs ← slice (sendBuf s) sd (sendCounts s r)
    let rd ← disps recvCounts s
    let buf ← writeAt buf rd xs
    alltoallvLoop r sendBuf sendCounts recvCounts ss buf

/-- The unpack loop, src/mpi_wrapper.h:178-188: `outs s` is what has been written so far through
the output iterator for sender `s`. -/
def unpackLoop {P : Nat} (recvCounts : Fin P → Nat) (recvBuf : List α) :
    List (Fin P) → (Fin P → List α) → Outcome (Fin P → List α)
  | [], outs => .ok outs
  | s :: ss, outs => do
    let d ← disps recvCounts s
    let xs ← slice recvBuf d (recvCounts s)
    unpackLoop recvCounts recvBuf ss (Function.update outs s (outs s ++ xs))

/-- Data of all ranks during `MyAllToAll`: remaining input iterators `its s r` (on rank `s`, for
destination `r`), current send counts, and output written so far `outs r s`. Part of `a2aTransfer`, src/mpi_wrapper.h:159-188. -/
structure A2AState (α : Type) (P : Nat) where
  its : Fin P → Fin P → List α
  sendCounts : Fin P → Fin P → Nat
  outs : Fin P → Fin P → List α

/-- Body of one pass after the counts `sc` are fixed, src/mpi_wrapper.h:159-188, on all ranks.
`bufSize` is `chunksize+world.size()`; `fill` is the initial content of buffer cells. The counts
received are those sent (`MPI_Alltoall`); their total is an `int` (line 161). -/
def a2aTransfer {P : Nat} (fill : α) (bufSize : Nat) (sc : Fin P → Fin P → Nat)
    (st : A2AState α P) : Outcome (A2AState α P) := do
  let totals ← allRanks P (fun r => fitsInt (compileOffsets (List.ofFn (fun s => sc s r))).2)
  let packed ← allRanks P (fun s =>
    packLoop (sc s) (List.finRange P) (List.replicate bufSize fill) (st.its s))
  let recvBufs ← allRanks P (fun r =>
    alltoallvLoop r (fun s => (packed s).1) sc (fun s => sc s r) (List.finRange P)
      (List.replicate (totals r) fill))
  let outs ← allRanks P (fun r =>
    unpackLoop (fun s => sc s r) (recvBufs r) (List.finRange P) (st.outs r))
  .ok ⟨fun s => (packed s).2, sc, outs⟩

/-- One pass of the transmission loop, src/mpi_wrapper.h:149-189: the count switches from `n+1` to
`n` when the remainder is used up (lines 153-157). -/
def a2aStep {P : Nat} (fill : α) (bufSize : Nat) (remainder : Fin P → Fin P → Nat) (iloop : Nat)
    (st : A2AState α P) : Outcome (A2AState α P) :=
  a2aTransfer fill bufSize
    (fun s r => if iloop = remainder s r then st.sendCounts s r - 1 else st.sendCounts s r) st

/-- The loop `for(iloop=0;iloop<Nloop;iloop++)`. Part of `myAllToAll`, src/mpi_wrapper.h:124-190. -/
def a2aLoop {P : Nat} (fill : α) (bufSize : Nat) (remainder : Fin P → Fin P → Nat) :
    Nat → Nat → A2AState α P → Outcome (A2AState α P)
  | 0, _, st => .ok st
  | n + 1, iloop, st => do
    let st ← a2aStep fill bufSize remainder iloop st
    a2aLoop fill bufSize remainder n (iloop + 1) st

/-- `ceil(1.*sum/chunksize)` (exact for counts below 2^53). Part of `numLoops`, src/mpi_wrapper.h:135-137. -/
def ceilDiv (sum chunksize : Nat) : Nat := (sum + chunksize - 1) / chunksize

/-- Number of passes: maximum over the ranks, `MPI_Allreduce(MPI_MAX)`,
src/mpi_wrapper.h:135-137. -/
def numLoops {P : Nat} (chunksize : Nat) (counts : Fin P → Fin P → Nat) : Nat :=
  ((List.finRange P).map (fun s => ceilDiv (List.ofFn (counts s)).sum chunksize)).foldl max 0

/-- `MyAllToAll`, src/mpi_wrapper.h:124-190. `its s r` is the sequence the input iterator
for destination `r` on rank `s` runs over; the result gives, for receiver `r` and sender `s`, the
sequence written through the output iterator. The code uses `chunksize = 1024*1024`. -/
def myAllToAll {P : Nat} (fill : α) (chunksize : Nat) (its : Fin P → Fin P → List α)
    (counts : Fin P → Fin P → Nat) : Outcome (Fin P → Fin P → List α) :=
  let nloop := numLoops chunksize counts
  if nloop = 0 then .ok (fun _ _ => [])
  else do
    let st : A2AState α P := ⟨its, fun s r => counts s r / nloop + 1, fun _ _ => []⟩
    let st ← a2aLoop fill (chunksize + P) (fun s r => counts s r % nloop) nloop 0 st
    .ok st.outs

/-- Loop of `MyBcast`, src/mpi_wrapper.h:207-228: `it` is the root's input iterator, `outs` what each
rank has written; `buffersize` elements travel per pass. -/
def bcastLoop {P : Nat} (nremainder : Nat) :
    Nat → Nat → Nat → List α → (Fin P → List α) → Outcome (Fin P → List α)
  | 0, _, _, _, outs => .ok outs
  | n + 1, iloop, buffersize, it, outs => do
    let buffersize := if iloop = nremainder then buffersize - 1 else buffersize
    let (buffer, it) ← readIter it buffersize
    bcastLoop nremainder n (iloop + 1) buffersize it (fun r => outs r ++ buffer)

/-- `MyBcast`, src/mpi_wrapper.h:192-229. `counts r` is the value of `ParticleCount` on rank `r`
before the call; returns the new counts and the output of each rank. -/
def myBcast {P : Nat} (chunksize : Nat) (root : Fin P) (counts : Fin P → Nat) (it : List α) :
    Outcome ((Fin P → Nat) × (Fin P → List α)) :=
  let count := counts root
  let counts : Fin P → Nat := fun _ => count
  let nloop := ceilDiv count chunksize
  if nloop = 0 then .ok (counts, fun _ => [])
  else do
    let outs ← bcastLoop (count % nloop) nloop 0 (count / nloop + 1) it (fun _ => [])
    .ok (counts, outs)

/-- Conversion of a `size_t` to (32-bit) `int`, `len=x.size()`, src/mpi_wrapper.h:72. -/
def sizeToInt (n : Nat) : Int := (BitVec.ofNat 32 n).toInt

/-- `SyncContainer`, src/mpi_wrapper.h:65-81: `x r` is the container on rank `r`. A negative
length makes the broadcast fail (MPI error, `length_error`): `abort`. -/
def syncContainer {P : Nat} (root : Fin P) (x : Fin P → List α) : Outcome (Fin P → List α) :=
  let len := sizeToInt (x root).length
  if len ≥ 2147483647 then .abort
  else if len < 0 then .abort
  else .ok (fun r => if r = root then x root else (x root).take len.toNat)

/-- `SyncVectorBool`, src/mpi_wrapper.cpp:13-21 (bool → char → bool). -/
def syncVectorBool {P : Nat} (root : Fin P) (x : Fin P → List Bool) : Outcome (Fin P → List Bool) := do
  let y : Fin P → List (BitVec 8) := fun r =>
    if r = root then (x root).map (fun b => if b then 1#8 else 0#8) else []
  let y ← syncContainer root y
  .ok (fun r => if r = root then x r else (y r).map (fun c => c != 0#8))

/-- Successive `getline` calls on a string stream, src/mpi_wrapper.cpp:41-43: characters up to
each newline; a non-empty rest without newline counts as a line. `cur` is the line read so far. -/
def getlines : List Char → List Char → List (List Char)
  | cur, [] => if cur.isEmpty then [] else [cur]
  | cur, c :: cs => if c = '\n' then cur :: getlines [] cs else getlines (cur ++ [c]) cs

/-- `SyncVectorString`, src/mpi_wrapper.cpp:23-45. -/
def syncVectorString {P : Nat} (root : Fin P) (x : Fin P → List (List Char)) :
    Outcome (Fin P → List (List Char)) := do
  let buffer : Fin P → List Char := fun r =>
    if r = root then ((x root).map (fun s => s ++ ['\n'])).flatten else []
  let buffer ← syncContainer root buffer
  .ok (fun r => if r = root then x r else getlines [] (buffer r))

end HBT.Model
