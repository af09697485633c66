import Verif.Lemmas.SpmdMpi
import Verif.Model.SpmdExchange
set_option linter.unusedSectionVars false
/-!
# The programs of the particle query and the distribution of haloes do what `Model/Exchange.lean` and `Model/HaloExchange.lean` say
-/
namespace HBT.Spmd
open HBT HBT.Model
variable {P : Nat} {D S α β : Type}

theorem query_runs {needHash : Bool} {chunksize : Nat} {fill : Particle D} {sort : List (Particle D × Nat) → List (Particle D × Nat)}
    {ranges : List Int} {snap : Fin P → SnapRank D} {halos res : Fin P → List (List (Particle D))}
    (h : exchange needHash chunksize fill sort ranges snap halos = .ok res) :
    Runs (fun r => query needHash chunksize fill sort ranges (snap r) (halos r)) res := by
  rw [exchange] at h
  obtain ⟨iters, h1, h⟩ := bind_eq_ok h
  obtain ⟨iter, h2, h⟩ := bind_eq_ok h
  obtain ⟨size, h3, h⟩ := bind_eq_ok h
  obtain ⟨recv, h4, h⟩ := bind_eq_ok h
  obtain ⟨queried, h5, h⟩ := bind_eq_ok h
  obtain ⟨roamIter, h6, h⟩ := bind_eq_ok h
  obtain ⟨back, h7, h⟩ := bind_eq_ok h
  obtain ⟨locals, h8, h⟩ := bind_eq_ok h
  obtain ⟨restored, h9, h⟩ := bind_eq_ok h
  unfold query
  refine Runs.lift_bind (fun r => allRanks_inv h1 r) ?_
  refine Runs.lift_bind (fun r => allRanks_inv h2 r) ?_
  refine Runs.lift_bind (fun r => allRanks_inv h3 r) ?_
  refine Runs.bind (a := back) ?_ ?_
  · unfold queryBody
    refine Runs.bind runs_alltoall ?_
    refine Runs.bind (allToAll_runs h4) ?_
    refine Runs.lift_bind (fun r => allRanks_inv h5 r) ?_
    refine Runs.lift_bind (fun r => allRanks_inv h6 r) ?_
    exact allToAll_runs h7
  · refine Runs.lift (fun r => ?_)
    unfold queryEnd
    rw [allRanks_inv h8 r, Outcome.bind_ok, allRanks_inv h9 r, Outcome.bind_ok]
    exact allRanks_inv h r

theorem sendArray_runs {counts : Fin P → Fin P → Nat} {buf : Fin P → List β} {res : Fin P → Fin P → List β}
    (h : allRanks P (fun r => allRanks P (fun s => blockFrom buf counts s r)) = .ok res) :
    Runs (fun r => sendArray (counts r) (fun s => counts s r) (buf r)) res := by
  have h' : ∀ r s, (do let d ← disps (counts s) r; slice (buf s) d (counts s r)) = .ok (res r s) :=
    fun r s => allRanks_inv (allRanks_inv h r) s
  unfold sendArray
  refine Runs.lift_bind (a := fun s r => res r s) (fun s => allRanks_ok _ _ (fun r => h' r s)) ?_
  refine runs_alltoallv (fun r s => ?_)
  obtain ⟨d, _, h2⟩ := bind_eq_ok (h' r s)
  exact (slice_length h2).symm

theorem sendTo_runs {chunksize : Nat} {fill : α} {sort : List (Int × Nat) → List (Int × Nat)}
    {decided : Fin P → List (HaloRec S α) × List (Int × Nat)} {out res : Fin P → List (HaloRec S α)}
    (h : distributeTo chunksize fill sort decided out = .ok res) :
    Runs (fun r => sendTo chunksize fill sort (decided r) (out r)) res := by
  rw [distributeTo] at h
  obtain ⟨sorted, h1, h⟩ := bind_eq_ok h
  obtain ⟨haloCounts, h2, h⟩ := bind_eq_ok h
  obtain ⟨shells, h3, h⟩ := bind_eq_ok h
  obtain ⟨sizes, h4, h⟩ := bind_eq_ok h
  obtain ⟨groups, h5, h⟩ := bind_eq_ok h
  obtain ⟨partCounts, h6, h⟩ := bind_eq_ok h
  obtain ⟨parts, h7, h⟩ := bind_eq_ok h
  obtain ⟨filled, h8, h⟩ := bind_eq_ok h
  injection h with h
  subst h
  unfold sendTo
  refine Runs.lift_bind (fun r => allRanks_inv h1 r) ?_
  refine Runs.lift_bind (fun r => allRanks_inv h2 r) ?_
  refine Runs.lift_bind (fun r => allRanks_inv h6 r) ?_
  refine Runs.bind (a := fun r s => List.zipWith HaloRec.mk (shells r s) (filled r s)) ?_ (Runs.ret _)
  unfold sendHalos
  refine Runs.bind runs_alltoall ?_
  refine Runs.bind (sendArray_runs h3) ?_
  refine Runs.bind (sendArray_runs h4) ?_
  refine Runs.lift_bind (fun r => allRanks_inv h5 r) ?_
  refine Runs.bind (allToAll_runs h7) ?_
  exact Runs.lift_bind (fun r => allRanks_inv h8 r) (Runs.ret _)

theorem spreadHalos_runs {chunksize : Nat} {fill : α} {sort : List (Int × Nat) → List (Int × Nat)}
    {average : HaloRec S α → HaloRec S α} {cell : HaloRec S α → Outcome Int} {halos out res : Fin P → List (HaloRec S α)}
    (h : distributeHalos chunksize fill sort average cell halos out = .ok res) :
    Runs (fun r => spreadHalos chunksize fill sort average cell (halos r) (out r)) res := by
  rw [distributeHalos] at h
  obtain ⟨decided, h1, h⟩ := bind_eq_ok h
  exact Runs.lift_bind (fun r => allRanks_inv h1 r) (sendTo_runs h)

end HBT.Spmd
