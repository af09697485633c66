import Verif.Spec.Spmd
import Verif.Model.Outcome
/-!
# Programs of the processes: sequencing, local computations and MPI calls

`Spec/Spmd.lean` says what a program is and how the programs of all processes run together. A program that crashes locally
(undefined behaviour, failed assertion, endless loop) is `fail`.
-/
namespace HBT.Spmd
variable {P : Nat} {α β τ : Type}

/-- One program after the other. (The semicolon of C++; no line of its own. Programs start at HBT.cpp:16-95.) -/
def Prog.bind : Prog P α → (α → Prog P β) → Prog P β
  | .ret a, f => f a
  | .fail, _ => .fail
  | .coll C κ x k, f => .coll C κ x (fun y => (k y).bind f)
  | .split c k, f => .split c (fun C => (k C).bind f)
  | .isend d t m k, f => .isend d t m (k.bind f)
  | .recv s t τ k, f => .recv s t τ (fun m => (k m).bind f)
  | .waitall k, f => .waitall (k.bind f)

/-- Notation for `bind`, the sequencing of statements (no line of its own, in all functions of HBT.cpp:16-95). -/
instance : Monad (Prog P) where
  pure := .ret
  bind := .bind

/-- A local computation. (What a process computes between two MPI calls, for example src/particle_exchanger.h:194-205.) -/
def lift : Outcome α → Prog P α
  | .ok a => .ret a
  | _ => .fail

/-- `MPI_Barrier(world.Communicator)`. For example src/io/subhalo_io.cpp:150. -/
def barrier : Prog P Unit := .coll (.world P) .barrier () .ret

/-- `MPI_Bcast(buf, count, τ, root, world.Communicator)`. Used by `findHosts`, src/subhalo_tracking.cpp:206-245. -/
def bcast (root : Fin P) (count : Nat) (buf : List τ) : Prog P (List τ) := .coll (.world P) (.bcast τ root.val count) buf .ret

/-- The only element of a buffer. (Buffers of one element, for example src/mpi_wrapper.h:76.) -/
def only (l : List τ) : Prog P τ :=
  match l with
  | [a] => .ret a
  | _ => .fail

/-- `MPI_Bcast(&x, 1, τ, root, world.Communicator)`. Used by `findHosts`, src/subhalo_tracking.cpp:206-245. -/
def bcast1 (root : Fin P) (x : τ) : Prog P τ := do
  let l ← bcast root 1 [x]
  only l

/-- `MPI_Allreduce(buf, res, count, τ, op, world.Communicator)`. Used by `findHosts`, src/subhalo_tracking.cpp:206-245. -/
def allreduce (op : τ → τ → τ) (count : Nat) (buf : List τ) : Prog P (List τ) := .coll (.world P) (.allreduce τ op count) buf .ret

/-- `MPI_Allreduce(&x, &y, 1, τ, op, world.Communicator)`. Used by `saveCatalogue`, src/io/subhalo_io.cpp:275-296. -/
def allreduce1 (op : τ → τ → τ) (x : τ) : Prog P τ := do
  let l ← allreduce op 1 [x]
  only l

/-- `MPI_Reduce(&x, &y, 1, τ, op, root, world.Communicator)`; only the root gets a result.
Used by `loadCatalogue`, src/io/subhalo_io.cpp:118-173. -/
def reduce1 (op : τ → τ → τ) (root : Fin P) (x : τ) : Prog P (Option τ) := .coll (.world P) (.reduce τ op root.val) x .ret

/-- `MPI_Scan(&x, &y, 1, τ, op, world.Communicator)`. Used by `register`, src/subhalo_tracking.cpp:535-561. -/
def scan1 (op : τ → τ → τ) (x : τ) : Prog P τ := .coll (.world P) (.scan τ op) x .ret

/-- `MPI_Allgather(&x, 1, τ, buf, 1, τ, world.Communicator)`. Used by `exchangeParts`, src/snapshot_exchanger.cpp:150-188. -/
def allgather (x : τ) : Prog P (List τ) := .coll (.world P) (.allgather τ) x .ret

/-- `MPI_Alltoall(send, 1, τ, recv, 1, τ, world.Communicator)`. Used by `queryBody`, src/particle_exchanger.h:178-213. -/
def alltoall (x : Fin P → τ) : Prog P (Fin P → τ) := .coll (.world P) (.alltoall τ) x .ret

/-- `MPI_Alltoallv`: the blocks to be sent to each process, and the numbers of elements to be received from each.
Used by `a2aBody`, src/mpi_wrapper.h:159-188. -/
def alltoallv (blocks : Fin P → List τ) (recvCounts : Fin P → Nat) : Prog P (Fin P → List τ) :=
  .coll (.world P) (.alltoallv τ) (blocks, recvCounts) .ret

/-- `MPI_Scatterv`: the blocks (of the root) for each process, and the number of elements to be received.
Used by `findOther`, src/subhalo_tracking.cpp:200-369. -/
def scatterv (root : Fin P) (blocks : Fin P → List τ) (recvCount : Nat) : Prog P (List τ) :=
  .coll (.world P) (.scatterv τ root) (blocks, recvCount) .ret

end HBT.Spmd
