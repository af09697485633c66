import Verif.Spec.Types
import Verif.Model.Mpi
/-!
# Model of moving haloes between ranks

`DecideTargetProcessor`, src/particle_exchanger.h:253-268, and the distribution part of
`ParticleSnapshot_t::ExchangeHalos`, src/particle_exchanger.h:283-327 (after the particle query, which
is modelled in `Model/Exchange.lean`).

A halo is its shell (the members carried by `MPI_Halo_Shell_Type`, centre included) together with
its particle list.
-/
namespace HBT.Model
variable {S α : Type}

/-- `Halo_T`: shell and particles. Part of `decideTargets`, src/particle_exchanger.h:253-268. -/
structure HaloRec (S α : Type) where
  shell : S
  particles : List α
  deriving DecidableEq

/-- `DecideTargetProcessor`, src/particle_exchanger.h:253-268, on one rank. `average` is
`AverageCoordinates` (fills the centre from the particles), `cell` is `AssignCell` applied to the
centre. Returns the haloes with their centres filled in and `TargetRank` as pairs (rank, index). -/
def decideTargets (average : HaloRec S α → HaloRec S α) (cell : HaloRec S α → Outcome Int) :
    List (HaloRec S α) → Nat → Outcome (List (HaloRec S α) × List (Int × Nat))
  | [], _ => .ok ([], [])
  | h :: hs, i => do
    let h := average h
    let r ← cell h
    let (hs, ts) ← decideTargets average cell hs (i + 1)
    .ok (h :: hs, (r, i) :: ts)

/-- `InHalosSorted[haloid]=move(InHalos[TargetRank[haloid].Id])`, src/particle_exchanger.h:293. -/
def reorder (hs : List (HaloRec S α)) : List (Int × Nat) → Outcome (List (HaloRec S α))
  | [] => .ok []
  | t :: ts => do
    let h ← Outcome.get hs t.2
    let rest ← reorder hs ts
    .ok (h :: rest)

/-- `counts[rank]+=n` for each pair (rank, n), as in src/particle_exchanger.h:294 and 320-322: out of range is
undefined. -/
def tally (P : Nat) : List (Int × Nat) → (Fin P → Nat) → Outcome (Fin P → Nat)
  | [], c => .ok c
  | (r, n) :: l, c =>
    if h : 0 ≤ r ∧ r.toNat < P then
      tally P l (Function.update c ⟨r.toNat, h.2⟩ (c ⟨r.toNat, h.2⟩ + n))
    else .ub

/-- Writing a particle sequence through `OutParticleIterator`, whose haloes have been resized to
`sizes` (src/particle_exchanger.h:306-307, 317): the iterator visits the cells of the haloes one after the other (C14).
Writing past the last cell is undefined, and so is (in the model) leaving a cell unwritten. -/
def fillHalos : List Nat → List α → Outcome (List (List α))
  | [], [] => .ok []
  | [], _ :: _ => .ub
  | n :: ns, ps =>
    if n ≤ ps.length then do
      let rest ← fillHalos ns (ps.drop n)
      .ok (ps.take n :: rest)
    else .ub

/-- Receiver `r`'s part of an `MPI_Alltoallv` with displacements compiled from the counts, from
sender `s` (src/particle_exchanger.h:298-305, 316-317). -/
def blockFrom {β : Type} {P : Nat} (buf : Fin P → List β) (counts : Fin P → Fin P → Nat) (s r : Fin P) :
    Outcome (List β) := do
  let d ← disps (counts s) r
  slice (buf s) d (counts s r)

/-- Lines 290-327 on all ranks, once the targets are decided: `decided s` are the haloes on rank `s`
with their centres and `TargetRank`, `out r` what `OutHalos` held before. The blocks a rank receives
are stored in sender order behind the old content, because `RecvHaloDisps` tile the new part. The
same code is in src/io/apostle_io.cpp:711-753. -/
def distributeTo {P : Nat} (chunksize : Nat) (fill : α)
    (sort : List (Int × Nat) → List (Int × Nat))
    (decided : Fin P → List (HaloRec S α) × List (Int × Nat))
    (out : Fin P → List (HaloRec S α)) : Outcome (Fin P → List (HaloRec S α)) := do
  let target := fun s => sort (decided s).2
  let sorted ← allRanks P (fun s => reorder (decided s).1 (target s))
  let haloCounts ← allRanks P (fun s => tally P ((target s).map (fun t => (t.1, 1))) (fun _ => 0))
  let shells ← allRanks P (fun r => allRanks P (fun s =>
    blockFrom (fun s => (sorted s).map HaloRec.shell) haloCounts s r))
  let sizes ← allRanks P (fun r => allRanks P (fun s =>
    blockFrom (fun s => (sorted s).map (fun h => h.particles.length)) haloCounts s r))
  let groups ← allRanks P (fun s => allRanks P (fun r => blockFrom sorted haloCounts s r))
  let partCounts ← allRanks P (fun s => tally P
    (List.zipWith (fun t h => (t.1, h.particles.length)) (target s) (sorted s)) (fun _ => 0))
  let parts ← myAllToAll fill chunksize (fun s r => ((groups s r).map HaloRec.particles).flatten) partCounts
  let filled ← allRanks P (fun r => allRanks P (fun s => fillHalos (sizes r s) (parts r s)))
  .ok (fun r => out r ++ (List.ofFn (fun s => List.zipWith HaloRec.mk (shells r s) (filled r s))).flatten)

/-- src/particle_exchanger.h:283-327 on all ranks: `halos s` are the haloes on rank `s` after the particle query. -/
def distributeHalos {P : Nat} (chunksize : Nat) (fill : α)
    (sort : List (Int × Nat) → List (Int × Nat))
    (average : HaloRec S α → HaloRec S α) (cell : HaloRec S α → Outcome Int)
    (halos out : Fin P → List (HaloRec S α)) : Outcome (Fin P → List (HaloRec S α)) := do
  let decided ← allRanks P (fun s => decideTargets average cell (halos s) 0)
  distributeTo chunksize fill sort decided out

end HBT.Model
