import Verif.Model.SpmdMpi
import Verif.Model.SpmdSend
import Verif.Model.Hosts
import Verif.Model.HaloExchange
/-!
# Host assignment as programs of the processes, src/subhalo_tracking.cpp:200-434

The local parts are those of `Model/Hosts.lean`. `root` is the process whose subhaloes are moved, `r` the one that runs the program; `hash` and
`inSnap` are the tables of the latter.
-/
namespace HBT.Spmd
open HBT.Model
variable {P : Nat} {K D : Type}

/-! ## `FindOtherHosts`, lines 200-369 -/

/-- `TrackParticleIds` on the root, src/subhalo_tracking.cpp:217-221. -/
def trackParticles : List (Sub K D) → Outcome (List Int)
  | [] => .ok []
  | s :: subs => do
    let p ← Outcome.get s.particles 0
    let ps ← trackParticles subs
    .ok (p.id :: ps)

/-- `TrackParticleIds` before the broadcast, src/subhalo_tracking.cpp:216-221. -/
def trackBuffer (isRoot : Bool) (n : Nat) (chunk : List (Sub K D)) : Outcome (List Int) :=
  if isRoot then trackParticles chunk else .ok (List.replicate n 0)

/-- `LocalHostIds`, src/subhalo_tracking.cpp:225-243. -/
def hostPairs (hash : Int → Int) (inSnap : Int → Bool) (root r : Fin P) (chunk : List (Sub K D)) (ids : List Int) : List (Int × Fin P) :=
  if r = root then chunk.map (fun s => (s.hostHaloId, r)) else ids.map (fun pid => (getLocalHostId hash inSnap pid, r))

/-- src/subhalo_tracking.cpp:206-245: `GlobalHostIds`. (The check of line 211 is left out: a chunk has at most `MaxChunkSize` subhaloes.) -/
def findHosts (hash : Int → Int) (inSnap : Int → Bool) (root r : Fin P) (chunk : List (Sub K D)) : Prog P (List (Int × Fin P)) := do
  let n ← bcast1 root chunk.length
  let ids ← lift (trackBuffer (decide (r = root)) n chunk)
  let ids ← bcast root n ids
  allreduce maxloc n (hostPairs hash inSnap root r chunk ids)

/-- The subhaloes packed for process `r`, src/subhalo_tracking.cpp:256-270. -/
def packFor (chunk : List (Sub K D)) (g : List (Int × Fin P)) (r : Fin P) : List (Sub K D) :=
  ((List.zip chunk g).filter (fun x => decide (x.2.2 = r))).map Prod.fst

/-- The four messages for process `r`, src/subhalo_tracking.cpp:277-292: the sizes of the particle lists (tag 0), the particles (tag 1), the sizes of
the nests (tag 0), the nests (tag 1). -/
def messagesFor (subs : List (Sub K D)) (r : Fin P) : List (Fin P × Nat × Msg) :=
  [(r, 0, ⟨Nat, subs.map (fun s => s.particles.length)⟩), (r, 1, ⟨Particle D, (subs.map Sub.particles).flatten⟩),
   (r, 0, ⟨Nat, subs.map (fun s => s.nested.length)⟩), (r, 1, ⟨Int, (subs.map Sub.nested).flatten⟩)]

/-- All sends, src/subhalo_tracking.cpp:275-293. -/
def hostSends (chunk : List (Sub K D)) (g : List (Int × Fin P)) : List (Fin P × Nat × Msg) :=
  (List.finRange P).flatMap (fun r => messagesFor (packFor chunk g r) r)

/-- src/subhalo_tracking.cpp:296-337: the particle lists and nests received. `MPI_Recv` into buffers of the announced sizes (`hindexed` types); the
number of subhaloes is that found by `MPI_Probe`. -/
def recvSubs (root : Fin P) : Prog P (List (List (Particle D) × List Int)) := do
  let sizes ← recvAny root 0 Nat
  let ps ← recvCount root 1 sizes.sum (Particle D)
  let parts ← lift (fillHalos sizes ps)
  let nestSizes ← recvCount root 0 sizes.length Nat
  let ns ← recvCount root 1 nestSizes.sum Int
  let nests ← lift (fillHalos nestSizes ns)
  .ret (List.zip parts nests)

/-- src/subhalo_tracking.cpp:249-346: sends, receives and `MPI_Waitall`. -/
def moveSubs (root r : Fin P) (chunk : List (Sub K D)) (g : List (Int × Fin P)) : Prog P (List (List (Particle D) × List Int)) :=
  (if r = root then sendAll (hostSends chunk g) else .ret ()) >>= fun _ => recvSubs root >>= fun x =>
    (if r = root then waitSends else .ret ()) >>= fun _ => .ret x

/-- `TmpHalos`, `Counts` and `Disps` on the root, src/subhalo_tracking.cpp:348-367: the shells for each process. -/
def shellBlocks (isRoot : Bool) (chunk : List (Sub K D)) (g : List (Int × Fin P)) : Outcome (Fin P → List (Sub K D)) :=
  if isRoot then do
    let tmp ← readAll (fun s => s) (List.zipWith (fun s x => { s with hostHaloId := x.1 }) chunk g)
      ((((g.map Prod.snd).zipIdx).mergeSort (fun a b => decide (a.1.val ≤ b.1.val))).map Prod.snd)
    sendBlocks (fun r => (packFor chunk g r).length) tmp
  else .ok (fun _ => [])

/-- `FindOtherHosts`, src/subhalo_tracking.cpp:200-369, on process `r`: `chunk` are the subhaloes to be moved (on the root; empty on the others), `loc` is
`LocalSubhalos`. -/
def findOther (hash : Int → Int) (inSnap : Int → Bool) (root r : Fin P) (chunk loc : List (Sub K D)) : Prog P (List (Sub K D)) := do
  let g ← findHosts hash inSnap root r chunk
  let x ← moveSubs root r chunk g
  let blocks ← lift (shellBlocks (decide (r = root)) chunk g)
  let shells ← scatterv root blocks x.length
  .ret (loc ++ List.zipWith assemble shells x)

/-! ## `FindOtherHostsSafely`, lines 370-416 -/

/-- The root, src/subhalo_tracking.cpp:376-404: a broadcast of `flagstop=0` before each chunk, of `flagstop=1` at the end. -/
def rootChunks (hash : Int → Int) (inSnap : Int → Bool) (root : Fin P) (subs : List (Sub K D)) :
    List (Nat × Nat) → List (Sub K D) → Prog P (List (Sub K D))
  | [], loc => do
    let _ ← bcast1 root (1 : Int)
    .ret loc
  | b :: bs, loc => do
    let _ ← bcast1 root (0 : Int)
    let chunk ← lift (slice subs b.1 (b.2 - b.1))
    let loc ← findOther hash inSnap root root chunk loc
    rootChunks hash inSnap root subs bs loc

/-- The other processes, src/subhalo_tracking.cpp:405-415; `fuel` bounds the number of iterations of `while(true)`. -/
def otherChunks (hash : Int → Int) (inSnap : Int → Bool) (root r : Fin P) : Nat → List (Sub K D) → Prog P (List (Sub K D))
  | 0, _ => .fail
  | fuel + 1, loc => do
    let stop ← bcast1 root (0 : Int)
    if stop ≠ 0 then .ret loc
    else do
      let loc ← findOther hash inSnap root r [] loc
      otherChunks hash inSnap root r fuel loc

/-- `FindOtherHostsSafely`, src/subhalo_tracking.cpp:370-416. -/
def findSafely (fuel maxChunk : Nat) (hash : Int → Int) (inSnap : Int → Bool) (r : Fin P) (keep : List (Sub K D)) (root : Fin P)
    (loc : List (Sub K D)) : Prog P (List (Sub K D)) :=
  if r = root then rootChunks hash inSnap root keep (chunkBounds maxChunk (keep.map (fun s => s.particles.length)) 0 0 0) loc
  else otherChunks hash inSnap root r fuel loc

/-! ## `AssignHosts`, lines 417-434 -/

/-- The loop over roots, src/subhalo_tracking.cpp:427-428. -/
def findRoots (fuel maxChunk : Nat) (hash : Int → Int) (inSnap : Int → Bool) (r : Fin P) (keep : List (Sub K D)) :
    List (Fin P) → List (Sub K D) → Prog P (List (Sub K D))
  | [], loc => .ret loc
  | root :: roots, loc => do
    let loc ← findSafely fuel maxChunk hash inSnap r keep root loc
    findRoots fuel maxChunk hash inSnap r keep roots loc

/-- `AssignHosts`, src/subhalo_tracking.cpp:417-434, up to the table. -/
def assign (fuel maxChunk : Nat) (hash : Int → Int) (inSnap : Int → Bool) (r : Fin P) (subs : List (Sub K D)) : Prog P (List (Sub K D)) :=
  let f := findLocalHosts hash inSnap subs
  findRoots fuel maxChunk hash inSnap r f.1 (List.finRange P) f.2

end HBT.Spmd
