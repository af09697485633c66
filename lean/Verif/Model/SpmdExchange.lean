import Verif.Model.SpmdPartition
import Verif.Model.Exchange
import Verif.Model.HaloExchange
/-!
# The particle query and the distribution of haloes as programs of the processes, src/particle_exchanger.h:89-327

The local parts are those of `Model/Exchange.lean` and `Model/HaloExchange.lean`.
-/
namespace HBT.Spmd
open HBT.Model
variable {P : Nat} {D S α : Type}

/-- The end of `RecvParticles` (the values are written through `LocalIterators`, then `RestoreParticleOrder`) and `RestoreParticles`,
src/particle_exchanger.h:211-237. -/
def queryEnd (loc : List (Particle D × Nat)) (iters : List Nat) (sizes : List Nat) (back : Fin P → List (Particle D)) :
    Outcome (List (List (Particle D))) := do
  let locals ← writeBack iters (List.ofFn back) (loc.map Prod.fst)
  let restored ← restoreOrder Prod.snd (locals.zip (loc.map Prod.snd))
  restoreParticles sizes (restored.map Prod.fst)

/-- The communication of `Exchange`: `SendParticles` from line 178 on, `QueryParticles` and the `MyAllToAll` of `RecvParticles`,
src/particle_exchanger.h:178-213. `iter` and `size` are `LocalIterators` and `LocalSizes`. -/
def queryBody (needHash : Bool) (chunksize : Nat) (fill : Particle D) (sort : List (Particle D × Nat) → List (Particle D × Nat))
    (snap : SnapRank D) (loc : List (Particle D)) (iter size : Fin P → Nat) : Prog P (Fin P → List (Particle D)) := do
  let roamSizes ← alltoall size
  let recv ← allToAll fill chunksize (fun r => loc.drop (iter r)) size
  let queried ← lift (queryParticles needHash sort snap (List.ofFn recv).flatten)
  let roamIter ← lift (allRanks P (disps roamSizes))
  allToAll fill chunksize (fun s => queried.drop (roamIter s)) roamSizes

/-- `ParticleExchanger_t::Exchange`, src/particle_exchanger.h:243-251, up to the final `KickNullParticles`. -/
def query (needHash : Bool) (chunksize : Nat) (fill : Particle D) (sort : List (Particle D × Nat) → List (Particle D × Nat))
    (ranges : List Int) (snap : SnapRank D) (halos : List (List (Particle D))) : Prog P (List (List (Particle D))) := do
  let loc := sort (collectParticles halos)
  let iters ← lift (localIterators ranges P (loc.map (fun q => q.1.id)))
  let iter ← lift (sizeArray iters)
  let size ← lift (sizeArray (localSizes loc.length iters))
  let back ← queryBody needHash chunksize fill sort snap (loc.map Prod.fst) iter size
  lift (queryEnd loc iters (halos.map List.length) back)

/-- `MPI_Alltoallv` with displacements compiled from the counts: what is received from each process.
Part of `sendHalos`, src/particle_exchanger.h:297-324. -/
def sendArray {β : Type} (counts recvCounts : Fin P → Nat) (buf : List β) : Prog P (Fin P → List β) := do
  let blocks ← lift (sendBlocks counts buf)
  alltoallv blocks recvCounts

/-- src/particle_exchanger.h:297-324 of `ExchangeHalos`: the shells, the sizes and the particles of the haloes. The haloes from each process with their particles filled in
are returned. -/
def sendHalos (chunksize : Nat) (fill : α) (sorted : List (HaloRec S α)) (haloCounts partCounts : Fin P → Nat) :
    Prog P (Fin P → List (HaloRec S α)) := do
  let recvCounts ← alltoall haloCounts
  let shells ← sendArray haloCounts recvCounts (sorted.map HaloRec.shell)
  let sizes ← sendArray haloCounts recvCounts (sorted.map (fun h => h.particles.length))
  let groups ← lift (sendBlocks haloCounts sorted)
  let parts ← allToAll fill chunksize (fun r => ((groups r).map HaloRec.particles).flatten) partCounts
  let filled ← lift (allRanks P (fun s => fillHalos (sizes s) (parts s)))
  .ret (fun s => List.zipWith HaloRec.mk (shells s) (filled s))

/-- The distribution of haloes in `ExchangeHalos`, src/particle_exchanger.h:283-327, once the targets are decided. -/
def sendTo (chunksize : Nat) (fill : α) (sort : List (Int × Nat) → List (Int × Nat))
    (decided : List (HaloRec S α) × List (Int × Nat)) (out : List (HaloRec S α)) : Prog P (List (HaloRec S α)) := do
  let target := sort decided.2
  let sorted ← lift (reorder decided.1 target)
  let haloCounts ← lift (tally P (target.map (fun t => (t.1, 1))) (fun _ => 0))
  let partCounts ← lift (tally P (List.zipWith (fun t h => (t.1, h.particles.length)) target sorted) (fun _ => 0))
  let got ← sendHalos chunksize fill sorted haloCounts partCounts
  .ret (out ++ (List.ofFn got).flatten)

/-- `ExchangeHalos` after the query, src/particle_exchanger.h:283-327. -/
def spreadHalos (chunksize : Nat) (fill : α) (sort : List (Int × Nat) → List (Int × Nat))
    (average : HaloRec S α → HaloRec S α) (cell : HaloRec S α → Outcome Int)
    (halos out : List (HaloRec S α)) : Prog P (List (HaloRec S α)) := do
  let decided ← lift (decideTargets average cell halos 0)
  sendTo chunksize fill sort decided out

end HBT.Spmd
