import Verif.Model.Spmd
/-!
# Sends and receives
-/
namespace HBT.Spmd
variable {P : Nat} {τ : Type}

/-- A sequence of `MPI_Isend` calls: receiver, tag and message. Used by `moveSubs`, src/subhalo_tracking.cpp:249-346. -/
def sendAll : List (Fin P × Nat × Msg) → Prog P Unit
  | [] => .ret ()
  | x :: xs => .isend x.1 x.2.1 x.2.2 (sendAll xs)

/-- `MPI_Recv` of a message with elements of type `τ`, of any number. Used by `recvSubs`, src/subhalo_tracking.cpp:296-337. -/
def recvAny (src : Fin P) (tag : Nat) (τ : Type) : Prog P (List τ) := .recv src tag τ .ret

/-- `MPI_Recv` of a message of `count` elements; a message of another size is an error.
Used by `recvSubs`, src/subhalo_tracking.cpp:296-337. -/
def recvCount (src : Fin P) (tag count : Nat) (τ : Type) : Prog P (List τ) :=
  .recv src tag τ (fun m => if m.length = count then .ret m else .fail)

/-- `MPI_Waitall` for all sends of the process. Used by `moveSubs`, src/subhalo_tracking.cpp:249-346. -/
def waitSends : Prog P Unit := .waitall (.ret ())

end HBT.Spmd
