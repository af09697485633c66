import Verif.Model.Average
import Verif.Model.HaloExchange
import Verif.Model.Exchange
/-!
# Model of src/io/apostle_io.cpp: snapshots and groups from per-particle group numbers

A file holds, for each particle type, the number of particles its header announces and the
datasets of that type, if the file has them. A raw record of type `R` bundles the entries of the
datasets (`Coordinates`, `Velocities`, `ParticleIDs`, `Masses`, `GroupNumber`); datasets whose length
differs from the announced number are not handled (the model calls that undefined). HDF5, the file
names and the header fields other than the particle numbers are not modelled. The arrays broadcast
by `SyncContainer` (C12) are the same on all ranks. The throttle of the reading loops is modelled in
`Model/Throttle.lean`.
-/
namespace HBT.Model
variable {R H α I : Type}

/-- One file: announced number and data of each type. Part of `PartFile.np`, src/io/apostle_io.cpp:118. -/
abbrev PartFile (R : Type) := List (Nat × Option (List R))

/-- `accumulate(begin(np_this), end(np_this), 0)`, src/io/apostle_io.cpp:118. -/
def PartFile.np (f : PartFile R) : Nat := (f.map Prod.fst).sum

/-- The loop over the types, `ReadSnapshot` src/io/apostle_io.cpp:147-233 and `ReadGroupParticles`
250-344. `base` is where the file starts in the array of the process, `off` are the remaining entries of
`offset_this`, `itype` counts the types, `conv` turns a raw record into a particle (wrapping the
position, scaling the velocity, filling the mass, marking the host). A type without data is skipped. -/
def readTypes (conv : Nat → R → H) (base : Nat) :
    Nat → List Nat → PartFile R → List H → Outcome (List H)
  | _, _, [], buf => .ok buf
  | _, [], _ :: _, _ => .ub
  | itype, o :: off, (np, data) :: f, buf =>
    if np = 0 then readTypes conv base (itype + 1) off f buf
    else match data with
      | none => readTypes conv base (itype + 1) off f buf
      | some d =>
        if d.length ≠ np then .ub
        else do
          let buf ← writeAt buf (base + o) (d.map (conv itype))
          readTypes conv base (itype + 1) off f buf

/-- The loop over the files of a rank, src/io/apostle_io.cpp:384-388 and 438-439. `offsets` is
`offset_file`. -/
def readPartFiles (conv : Nat → R → H) (files : List (PartFile R)) (offsets : List Nat) (skip : Nat) :
    Nat → Nat → List H → Outcome (List H)
  | 0, _, buf => .ok buf
  | n + 1, iFile, buf => do
    let o ← Outcome.get offsets iFile
    let o0 ← Outcome.get offsets skip
    let f ← Outcome.get files iFile
    if o < o0 then .ub
    else do
      let buf ← readTypes conv (o - o0) 0 (compileOffsets (f.map Prod.fst)).1 f buf
      readPartFiles conv files offsets skip n (iFile + 1) buf

/-- The common part of `LoadSnapshot`, src/io/apostle_io.cpp:349-391, and `LoadGroups`, 405-441: the
particle array of each rank after reading. `blank` is the value of a new vector element. -/
def loadParticles (P : Nat) (conv : Nat → R → H) (blank : H) (files : List (PartFile R)) :
    Outcome (Fin P → List H) := do
  let npFile := files.map PartFile.np
  let offsets := (compileOffsets npFile).1
  allRanks P (fun r => do
    let t ← assignTasks r.val P files.length
    let np := ((npFile.drop t.1).take (t.2 - t.1)).sum
    readPartFiles conv files offsets t.1 (t.2 - t.1) t.1 (List.replicate np blank))

/-- `NullGroupId`, src/io/apostle_io.h:37. -/
def nullGroupId : Int := 1073741824

/-- `HostId=(id[i]<0?NullGroupId:id[i])`, src/io/apostle_io.cpp:340. -/
def hostOf (groupNumber : Int) : Int := if groupNumber < 0 then nullGroupId else groupNumber

/-- The two assertions after sorting, src/io/apostle_io.cpp:444-448. -/
def checkHosts (hosts : List Int) : Outcome Unit :=
  match hosts.head?, hosts.getLast? with
  | some front, some back => if back ≤ nullGroupId ∧ 0 ≤ front then .ok () else .abort
  | _, _ => .ok ()

/-- The counting loop, src/io/apostle_io.cpp:461-472, over the host ids; `lens` is `HaloLen`. -/
def countGroups : Int → List (Int × Nat) → List Int → Outcome (List (Int × Nat))
  | _, lens, [] => .ok lens
  | curr, lens, h :: hs =>
    if h = nullGroupId then .ok lens
    else if h ≠ curr then countGroups h (lens ++ [(h, 1)]) hs
    else match lens.getLast? with
      | none => .ub
      | some l => countGroups curr (lens.dropLast ++ [(l.1, l.2 + 1)]) hs

/-- Filling the haloes, src/io/apostle_io.cpp:473-487; running past the particles is undefined. -/
def fillGroups : List (Int × Nat) → List α → Outcome (List (HaloRec Int α))
  | [], _ => .ok []
  | (id, n) :: ls, ps =>
    if n ≤ ps.length then do
      let rest ← fillGroups ls (ps.drop n)
      .ok (HaloRec.mk id (ps.take n) :: rest)
    else .ub

/-- The haloes of one rank before the exchange, src/io/apostle_io.cpp:443-487. A `ParticleHost_t` is a
particle with its host; the shell of a halo is its `HaloId` (the other members travel along but are
recomputed by `AverageCoordinates` in `MergeHalos`). -/
def localGroups (sort : List (α × Int) → List (α × Int)) (ps : List (α × Int)) :
    Outcome (List (HaloRec Int α)) := do
  let ps := sort ps
  let _ ← checkHosts (ps.map Prod.snd)
  let lens ← countGroups nullGroupId [] (ps.map Prod.snd)
  fillGroups lens (ps.map Prod.fst)

/-- `HaloInfo_t`, src/io/apostle_io.cpp:510-516; `x` stands for mass and position. -/
structure HaloInfo (I : Type) where
  id : Int
  x : I
  order : Nat

/-- `haloid_offsets`, src/io/apostle_io.cpp:642-652: positions at which the id changes, and the
number of entries. -/
def idOffsets : Int → Nat → List Int → List Nat
  | _, i, [] => [i]
  | curr, i, h :: hs => if curr ≠ h then i :: idOffsets h (i + 1) hs else idOffsets curr (i + 1) hs

/-- The loop calling `ReduceHaloRank` for each range, src/io/apostle_io.cpp:658-664 and 598-605:
`target` is the rank computed from the members of the range, which is stored in their `id`. -/
def markTargets (target : List I → Outcome Int) : List Nat → List (HaloInfo I) → Outcome (List (HaloInfo I))
  | a :: b :: rest, buf => do
    let xs ← slice buf a (b - a)
    let rank ← target (xs.map HaloInfo.x)
    let buf ← writeAt buf a (xs.map (fun h => { h with id := rank }))
    markTargets target (b :: rest) buf
  | _, buf => .ok buf

/-- `MaxHaloId` of one rank, src/io/apostle_io.cpp:620-621. -/
def lastId (infos : List (Int × I)) : Int := match infos.getLast? with | none => 0 | some h => h.1

/-- `DecideTargetProcessor`, src/io/apostle_io.cpp:606-676, on all ranks. `infos s` are the ids and
averages of the haloes on rank `s`, in order. Returns `TargetRank` as pairs (rank, index). Sorting by id
is `sortId`, sorting by order `sortOrder`. Receive buffers are filled in sender order, because the
offsets tile them. -/
def decideApostle {P : Nat} (sortId sortOrder : List (HaloInfo I) → List (HaloInfo I))
    (target : List I → Outcome Int) (infos : Fin P → List (Int × I)) :
    Outcome (Fin P → List (Int × Nat)) := do
  let maxId := ((List.finRange P).map (fun s => lastId (infos s))).foldl max 0 + 1
  let ndiv := maxId.tdiv P + (if maxId.tmod P ≠ 0 then 1 else 0)
  if ndiv = 0 then .ub
  else do
    let sizes ← allRanks P (fun s => tally P ((infos s).map (fun h => (h.1.tdiv ndiv, 1))) (fun _ => 0))
    let recv ← allRanks P (fun r => allRanks P (fun s => blockFrom infos sizes s r))
    let marked ← allRanks P (fun r => do
      let all := ((List.ofFn (recv r)).flatten).zipIdx.map (fun p => HaloInfo.mk p.1.1 p.1.2 p.2)
      let byId := sortId all
      let done ← markTargets target (idOffsets (-1) 0 (byId.map HaloInfo.id)) byId
      .ok (sortOrder done))
    let back ← allRanks P (fun s => allRanks P (fun r => blockFrom marked (fun r s => sizes s r) r s))
    .ok (fun s => ((List.ofFn (back s)).flatten).zipIdx.map (fun p => (p.1.id, p.2)))

/-- The merging loop of `MergeHalos`, src/io/apostle_io.cpp:682-696, on the haloes sorted by id;
`h1` is the halo at `it1`. The in-place compaction is a list. -/
def mergeInto (h1 : HaloRec Int α) : List (HaloRec Int α) → List (HaloRec Int α)
  | [] => [h1]
  | h2 :: hs =>
    if h2.shell = h1.shell then mergeInto (HaloRec.mk h1.shell (h1.particles ++ h2.particles)) hs
    else h1 :: mergeInto h2 hs

/-- `MergeHalos`, src/io/apostle_io.cpp:678-699 (`AverageCoordinates` fills members that are not part
of the model's halo). -/
def mergeHalos (sort : List (HaloRec Int α) → List (HaloRec Int α)) (hs : List (HaloRec Int α)) :
    List (HaloRec Int α) :=
  match sort hs with
  | [] => []
  | h :: hs => mergeInto h hs

/-- The `std::sort` calls of this file. Part of `loadApostleGroups`, src/io/apostle_io.cpp:405-503. -/
structure ApostleSorts (α I : Type) where
  hosts : List (α × Int) → List (α × Int)
  byId : List (HaloInfo I) → List (HaloInfo I)
  byOrder : List (HaloInfo I) → List (HaloInfo I)
  byRank : List (Int × Nat) → List (Int × Nat)
  byHalo : List (HaloRec Int α) → List (HaloRec Int α)

/-- `LoadGroups`, src/io/apostle_io.cpp:405-503, with `ExchangeAndMerge`, 755-763, on all ranks.
`info` is mass and position of a list of particles (`AveragePosition`), `target` the rank
`ReduceHaloRank` finds from the averages of the pieces of a halo. -/
def loadApostleGroups (P chunksize : Nat) (fill : α) (so : ApostleSorts α I)
    (conv : Nat → R → α × Int) (blank : α × Int) (info : List α → I) (target : List I → Outcome Int)
    (files : List (PartFile R)) : Outcome (Fin P → List (HaloRec Int α)) := do
  let ps ← loadParticles P conv blank files
  let halos ← allRanks P (fun r => localGroups so.hosts (ps r))
  let ranks ← decideApostle so.byId so.byOrder target
    (fun s => (halos s).map (fun h => (h.shell, info h.particles)))
  let moved ← distributeTo chunksize fill so.byRank (fun s => (halos s, ranks s)) (fun _ => [])
  .ok (fun r => mergeHalos so.byHalo (moved r))

section Reduce
variable {K : Type} [Field K] [LinearOrder K] [FloorRing K]

/-- `ReduceHaloPosition`, src/io/apostle_io.cpp:556-597; `x` is the content of the result before the
call. -/
def reduceHaloPosition (periodic : Bool) (boxsize : K) (x : Fin 3 → K) : List (Weighted K) → Weighted K
  | [] => (0, x)
  | [p] => p
  | p :: q :: ps =>
    let s := (p :: q :: ps).foldl (addPosition periodic boxsize p.2) (0, fun _ => 0)
    (s.1, fun j => if periodic then positionModulus (s.2 j / s.1 + p.2 j) boxsize else s.2 j / s.1)

/-- `ReduceHaloRank`, src/io/apostle_io.cpp:598-605. -/
def reduceHaloRank (periodic : Bool) (boxsize : K) (step : Fin 3 → K) (dims : List Int)
    (pieces : List (Weighted K)) : Outcome Int :=
  assignCell (reduceHaloPosition periodic boxsize (fun _ => 0) pieces).2 step dims

end Reduce

end HBT.Model
