import Verif.Model.Outcome
import Verif.Model.Mpi
import Verif.Model.Centrals
import Verif.Spec.Types
/-!
# Model of host assignment

`GetLocalHostId`, `FindLocalHosts`, `FindOtherHosts`, `FindOtherHostsSafely` and `AssignHosts`,
src/subhalo_tracking.cpp:164-434.

What a rank knows: `hash q pid` is `halo_snap.ParticleHash.GetIndex(pid)` on rank `q` (the local index of
the halo holding the particle, `-1` if there is none; C10 and C11 are about that table), and
`inSnap q pid` says whether `part_snap.GetIndex(pid)` finds the particle on rank `q`.
-/
namespace HBT.Model
variable {K D : Type}

/-- `GetLocalHostId`, src/subhalo_tracking.cpp:164-173. -/
def getLocalHostId (hash : Int → Int) (inSnap : Int → Bool) (pid : Int) : Int :=
  let hostid := hash pid
  if hostid < 0 then (if inSnap pid = false then hostid - 1 else hostid) else hostid

/-- src/subhalo_tracking.cpp:179-182: the local host of one subhalo. -/
def localHost (hash : Int → Int) (inSnap : Int → Bool) (s : Sub K D) : Sub K D :=
  match s.particles with
  | p :: _ => { s with hostHaloId := getLocalHostId hash inSnap p.id }
  | [] => { s with hostHaloId := -1 }

/-- `FindLocalHosts`, src/subhalo_tracking.cpp:174-198: the subhaloes kept in `Subhalos` (to be
scattered) and those appended to `LocalSubhalos`. The in-place compaction of `Subhalos` (186-197) is
modelled by building the list of kept entries. -/
def findLocalHosts (hash : Int → Int) (inSnap : Int → Bool) : List (Sub K D) → List (Sub K D) × List (Sub K D)
  | [] => ([], [])
  | s :: subs =>
    let s := localHost hash inSnap s
    let (keep, loc) := findLocalHosts hash inSnap subs
    if s.hostHaloId < 0 && s.particles.length != 0 then (s :: keep, loc) else (keep, s :: loc)

/-- One step of `MPI_MAXLOC`: the larger value; for equal values the smaller rank.
Used by `findHosts`, src/subhalo_tracking.cpp:206-245. -/
def maxloc {P : Nat} (a b : Int × Fin P) : Int × Fin P :=
  if a.1 < b.1 then b else if b.1 < a.1 then a else (a.1, min a.2 b.2)

/-- `MPI_Allreduce` with `MPI_MAXLOC` of one pair per rank. (The fold starts from the pair of some
rank, which then takes part twice; that does not change the result.) Part of `globalHost`, src/subhalo_tracking.cpp:225-245. -/
def allMaxloc {P : Nat} (x : Fin P → Int) (root : Fin P) : Int × Fin P :=
  (List.ofFn (fun q => (x q, q))).foldl maxloc (x root, root)

/-- src/subhalo_tracking.cpp:225-245: the host found for subhalo `s` of process `root`, and the rank that found it.
The track particle of an empty list would be read out of range (line 220). -/
def globalHost {P : Nat} (hash : Fin P → Int → Int) (inSnap : Fin P → Int → Bool) (root : Fin P)
    (s : Sub K D) : Outcome (Int × Fin P) := do
  let p ← Outcome.get s.particles 0
  .ok (allMaxloc (fun q => if q = root then s.hostHaloId else getLocalHostId (hash q) (inSnap q) p.id) root)

/-- `globalHost` of each subhalo of the chunk. Part of `findOtherHosts`, src/subhalo_tracking.cpp:200-369. -/
def globalHosts {P : Nat} (hash : Fin P → Int → Int) (inSnap : Fin P → Int → Bool) (root : Fin P) :
    List (Sub K D) → Outcome (List (Int × Fin P))
  | [] => .ok []
  | s :: subs => do
    let g ← globalHost hash inSnap root s
    let gs ← globalHosts hash inSnap root subs
    .ok (g :: gs)

/-- The shell (every member but `Particles` and `NestedSubhalos`) put together with the particles and
nests received separately (src/subhalo_tracking.cpp:303-337, 368). -/
def assemble (shell : Sub K D) (x : List (Particle D) × List Int) : Sub K D :=
  { shell with particles := x.1, nested := x.2 }

/-- `FindOtherHosts`, src/subhalo_tracking.cpp:200-369: `chunk` is moved from `root` to all ranks. The
particle lists and nests are sent to rank `r` in list order (packing loop 256-269, received
283-337); the shells are stable-sorted by target rank and scattered (348-368). -/
def findOtherHosts {P : Nat} (hash : Fin P → Int → Int) (inSnap : Fin P → Int → Bool) (root : Fin P)
    (chunk : List (Sub K D)) (loc : Fin P → List (Sub K D)) : Outcome (Fin P → List (Sub K D)) := do
  let g ← globalHosts hash inSnap root chunk
  let sendTo := fun r => (List.zip chunk g).filter (fun x => decide (x.2.2 = r))
  let counts := fun r => (sendTo r).length
  let withHost := List.zipWith (fun s x => { s with hostHaloId := x.1 }) chunk g
  let ids := ((g.map Prod.snd).zipIdx).mergeSort (fun a b => decide (a.1.val ≤ b.1.val))
  let tmp ← readAll (fun s => s) withHost (ids.map Prod.snd)
  allRanks P (fun r => do
    let d ← disps counts r
    let shells ← slice tmp d (counts r)
    .ok (loc r ++ List.zipWith assemble shells ((sendTo r).map (fun x => (x.1.particles, x.1.nested)))))

/-- The chunk boundaries of `FindOtherHostsSafely`, src/subhalo_tracking.cpp:378-401, for a list of particle
counts: `i` is the loop variable, the chunks are half-open index ranges. -/
def chunkBounds (maxChunk : Nat) : List Nat → Nat → Nat → Nat → List (Nat × Nat)
  | [], i, offset, _ => if i > offset then [(offset, i)] else []
  | n :: ns, i, offset, chunksize =>
    let chunksize := chunksize + n
    if chunksize ≥ maxChunk then
      (if i - offset ≠ 0 then [(offset, i)] else []) ++ chunkBounds maxChunk ns (i + 1) i n
    else chunkBounds maxChunk ns (i + 1) offset chunksize

/-- The calls of `FindOtherHosts` for the chunks of one root (all ranks take part in each, lines
385-416). Part of `scatterRoots`, src/subhalo_tracking.cpp:427-428. -/
def scatterChunks {P : Nat} (hash : Fin P → Int → Int) (inSnap : Fin P → Int → Bool) (root : Fin P)
    (subs : List (Sub K D)) : List (Nat × Nat) → (Fin P → List (Sub K D)) → Outcome (Fin P → List (Sub K D))
  | [], loc => .ok loc
  | b :: bs, loc => do
    let chunk ← slice subs b.1 (b.2 - b.1)
    let loc ← findOtherHosts hash inSnap root chunk loc
    scatterChunks hash inSnap root subs bs loc

/-- The loop over roots, src/subhalo_tracking.cpp:427-428. `maxChunk` is `MaxChunkSize`. -/
def scatterRoots {P : Nat} (maxChunk : Nat) (hash : Fin P → Int → Int) (inSnap : Fin P → Int → Bool)
    (keep : Fin P → List (Sub K D)) : List (Fin P) → (Fin P → List (Sub K D)) → Outcome (Fin P → List (Sub K D))
  | [], loc => .ok loc
  | root :: roots, loc => do
    let loc ← scatterChunks hash inSnap root (keep root)
      (chunkBounds maxChunk ((keep root).map (fun s => s.particles.length)) 0 0 0) loc
    scatterRoots maxChunk hash inSnap keep roots loc

/-- `AssignHosts`, src/subhalo_tracking.cpp:417-434, up to the table (`Model/Member.lean`). -/
def assignHosts {P : Nat} (maxChunk : Nat) (hash : Fin P → Int → Int) (inSnap : Fin P → Int → Bool)
    (subs : Fin P → List (Sub K D)) : Outcome (Fin P → List (Sub K D)) :=
  let f := fun r => findLocalHosts (hash r) (inSnap r) (subs r)
  scatterRoots maxChunk hash inSnap (fun r => (f r).1) (List.finRange P) (fun r => (f r).2)

end HBT.Model
