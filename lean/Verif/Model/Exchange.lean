import Verif.Spec.Types
import Verif.Model.Mpi
import Verif.Model.Hash
import Verif.Model.Restore
/-!
# Model of `ParticleExchanger_t`, src/particle_exchanger.h:89-251

An `OrderedParticle_t`/`RemoteParticle_t` is a particle paired with its `Order`. The member
`ProcessorId`, which is written (line 220) and never read, is left out.
-/
namespace HBT.Model
variable {D : Type}

/-- What the C++ standard guarantees for `sort(begin, end, comp)` where `comp` compares integer
keys: some rearrangement in ascending key order. The calls are src/particle_exchanger.h:155, 198, 287. -/
structure SortBySpec {β : Type} (key : β → Int) (sort : List β → List β) : Prop where
  perm : ∀ l, (sort l).Perm l
  sorted : ∀ l, (sort l).Pairwise (fun a b => key a ≤ key b)

/-- The part of `ParticleSnapshot_t` one rank holds: its particles and the two index tables
(src/snapshot.h:158-169). -/
structure SnapRank (D : Type) where
  particles : List (Particle D)
  mapped : MappedTable
  flat : FlatTable

/-- `ParticleKeyList_t`, src/snapshot.cpp:40-59: key `Particles[i].Id`, value `i`. -/
def particleKeys (ps : List (Particle D)) : List (Int × Int) :=
  ps.zipIdx.map (fun pi => (pi.1.id, (pi.2 : Int)))

/-- `ParticleSnapshot_t::GetIndices`, src/hash_remote.tpp:102-109. -/
def SnapRank.getIndices (needHash : Bool) (s : SnapRank D) (ids : List Int) : Outcome (List Int) :=
  if needHash then .ok (s.mapped.getIndices ids) else s.flat.getIndices ids

/-- `CollectParticles`, src/particle_exchanger.h:127-150: the particles of all haloes in order, each
tagged with its position. -/
def collectParticles (halos : List (List (Particle D))) : List (Particle D × Nat) :=
  halos.flatten.zipIdx

/-- The inner loop `while(it->Id>=snap.ProcessIdRanges[rank])`, src/particle_exchanger.h:162-170.
`LocalIterators[rank]` is filled in rank order, so `iters` holds the entries set so far and `rank` is
its length; `pos` is the position of `it`. -/
def cutInner (ranges : List Int) (P : Nat) (id : Int) (pos : Nat) : Nat → List Nat → Outcome (List Nat)
  | 0, _ => .diverge
  | fuel + 1, iters => do
    let b ← Outcome.get ranges iters.length
    if id ≥ b then
      if iters.length = P then .abort
      else cutInner ranges P id pos fuel (iters ++ [pos])
    else .ok iters

/-- The outer loop, src/particle_exchanger.h:160-171, over the ids of the particles from `pos` on. -/
def cutLoop (ranges : List Int) (P : Nat) : List Int → Nat → List Nat → Outcome (List Nat)
  | [], _, iters => .ok iters
  | id :: ids, pos, iters => do
    let iters ← cutInner ranges P id pos (P + 2) iters
    cutLoop ranges P ids (pos + 1) iters

/-- `LocalIterators`, src/particle_exchanger.h:157-173, as positions in `LocalParticles`. -/
def localIterators (ranges : List Int) (P : Nat) (ids : List Int) : Outcome (List Nat) := do
  let iters ← cutLoop ranges P ids 0 []
  .ok (iters ++ List.replicate (P - iters.length) ids.length)

/-- `LocalSizes`, src/particle_exchanger.h:174-176: differences of successive iterators, the last one
up to the end of the list. -/
def localSizes (n : Nat) (iters : List Nat) : List Nat :=
  List.zipWith (fun a b => b - a) iters (iters.tail ++ [n])

/-- `p=snap.Particles[p.Id]` unless the index is null, src/particle_exchanger.h:201-205. `idx` is what
`GetIndices` stored in `p.Id`. The assignment keeps `Order`. -/
def queryOne (snap : List (Particle D)) (q : Particle D × Nat) (idx : Int) :
    Outcome (Particle D × Nat) :=
  if idx ≠ nullId then do
    let p ← Outcome.getI snap idx
    .ok (p, q.2)
  else .ok (⟨idx, q.1.data⟩, q.2)

/-- The loop over `RoamParticles`, src/particle_exchanger.h:201-205. -/
def queryLoop (snap : List (Particle D)) :
    List (Particle D × Nat) → List Int → Outcome (List (Particle D × Nat))
  | q :: qs, idx :: idxs => do
    let r ← queryOne snap q idx
    let rs ← queryLoop snap qs idxs
    .ok (r :: rs)
  | _, _ => .ok []

/-- `QueryParticles`, src/particle_exchanger.h:193-208, on one rank. -/
def queryParticles (needHash : Bool) (sort : List (Particle D × Nat) → List (Particle D × Nat))
    (s : SnapRank D) (roam : List (Particle D)) : Outcome (List (Particle D)) := do
  let tagged := sort roam.zipIdx
  let idx ← s.getIndices needHash (tagged.map (fun q => q.1.id))
  let res ← queryLoop s.particles tagged idx
  let restored ← restoreOrder Prod.snd res
  .ok (restored.map Prod.fst)

/-- Writing the received particles back through `LocalIterators`, src/particle_exchanger.h:213:
block `r` of `blocks` goes to position `iters[r]` of the local list. -/
def writeBack : List Nat → List (List (Particle D)) → List (Particle D) → Outcome (List (Particle D))
  | off :: offs, b :: blocks, buf => do
    let buf ← writeAt buf off b
    writeBack offs blocks buf
  | _, _, buf => .ok buf

/-- `RestoreParticles`, src/particle_exchanger.h:226-237 (before `KickNullParticles`): cut the list
into haloes of the remembered sizes; the assertion of line 236 checks that nothing is left. -/
def restoreParticles : List Nat → List (Particle D) → Outcome (List (List (Particle D)))
  | [], ps => if ps.isEmpty then .ok [] else .abort
  | n :: ns, ps =>
    if n ≤ ps.length then do
      let rest ← restoreParticles ns (ps.drop n)
      .ok (ps.take n :: rest)
    else .ub

/-- `Exchange`, src/particle_exchanger.h:243-251, on all ranks, up to but excluding the final
`KickNullParticles` calls of line 240. `halos s` are the particle lists of the haloes on rank `s`.
`RoamParticles` on rank `r` is the concatenation over the senders of what they send, because
`RoamIterators` tile it with the announced sizes (lines 178-188). -/
def exchange {P : Nat} (needHash : Bool) (chunksize : Nat) (fill : Particle D)
    (sort : List (Particle D × Nat) → List (Particle D × Nat))
    (ranges : List Int) (snap : Fin P → SnapRank D) (halos : Fin P → List (List (Particle D))) :
    Outcome (Fin P → List (List (Particle D))) := do
  let loc : Fin P → List (Particle D × Nat) := fun s => sort (collectParticles (halos s))
  let iters ← allRanks P (fun s => localIterators ranges P ((loc s).map (fun q => q.1.id)))
  let sizes := fun s => localSizes (loc s).length (iters s)
  let iter ← allRanks P (fun s => allRanks P (fun r => Outcome.get (iters s) r.val))
  let size ← allRanks P (fun s => allRanks P (fun r => Outcome.get (sizes s) r.val))
  let recv ← myAllToAll fill chunksize (fun s r => ((loc s).map Prod.fst).drop (iter s r)) size
  let roam := fun r => (List.ofFn (recv r)).flatten
  let queried ← allRanks P (fun r => queryParticles needHash sort (snap r) (roam r))
  let roamIter ← allRanks P (fun r => allRanks P (fun s => disps (fun s => size s r) s))
  let back ← myAllToAll fill chunksize (fun r s => (queried r).drop (roamIter r s))
    (fun r s => size s r)
  let locals ← allRanks P (fun s =>
    writeBack (iters s) (List.ofFn (back s)) ((loc s).map Prod.fst))
  let restored ← allRanks P (fun s =>
    restoreOrder Prod.snd ((locals s).zip ((loc s).map Prod.snd)))
  allRanks P (fun s =>
    restoreParticles ((halos s).map List.length) ((restored s).map Prod.fst))

end HBT.Model
