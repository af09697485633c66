import Verif.Model.Outcome
import Verif.Model.Mpi
/-!
# Model of the infall-branch counter, toolbox/analysis/BranchStat.cpp

Rank 0 is the master, the other ranks hold the haloes of a snapshot. One target halo is modelled: the
messages of different targets are sent and received in the same order on every rank, so the targets
do not interact. `sort` is any sort meeting its specification, `std::unordered_map` iterates in any
order, and the master receives from the slaves in any order.
-/
namespace HBT.Model

/-- `ParticleBranch_t`, BranchStat.cpp:24-35. -/
structure BranchPart where
  pid : Int
  branch : Int
  index : Nat
  index0 : Nat
deriving DecidableEq

/-- `TargetHalo_t`, BranchStat.cpp:70-74. -/
structure TargetHalo where
  parts : List BranchPart
  nfound : Nat
  nbranch : Int
deriving DecidableEq

/-- What a slave knows of a snapshot: its particle hash, the identifiers of its haloes, and the number
of the snapshot. Part of `findOne`, BranchStat.cpp:87-94. -/
structure SlaveSnap where
  getIndex : Int → Int
  haloIds : List Int
  snapId : Int

/-- `std::sort` with `CompBranch`, BranchStat.cpp:62-65: branch numbers never increase. -/
structure BranchSort (sort : List BranchPart → List BranchPart) : Prop where
  perm : ∀ l, (sort l).Perm l
  sorted : ∀ l, (sort l).Pairwise (fun a b => b.branch ≤ a.branch)

/-- Iteration over an `unordered_map` that counted `ids`: each key once with its count, in some
order. The map is BranchStat.cpp:100, 134-145. -/
structure MapIteration (iter : List Int → List (Int × Nat)) : Prop where
  nodup : ∀ ids, ((iter ids).map (·.1)).Nodup
  mem : ∀ ids x, x ∈ iter ids ↔ x.1 ∈ ids ∧ x.2 = ids.count x.1

/-- `BranchIDSnapBase`, BranchStat.cpp:22. -/
def branchBase : Int := 10000000000000000

/-- `TargetHalo_t::Bcast`, BranchStat.cpp:75-82, on a slave. The buffer starts at the slave's own
`Nfound`, which is never sent: unless it equals the master's, the two sides of the broadcast disagree
about the number of elements, which MPI leaves undefined. -/
def bcastTarget (root slave : TargetHalo) : Outcome TargetHalo :=
  if slave.nfound = root.nfound then
    .ok { slave with parts := slave.parts.take slave.nfound ++ root.parts.drop root.nfound }
  else .ub

/-- One pass of the loop in `FindHost`, BranchStat.cpp:87-94. -/
def findOne (h : SlaveSnap) (ipart : Nat) (p : BranchPart) : Outcome BranchPart :=
  let b := h.getIndex p.pid
  if b ≠ -1 then do
    let hid ← Outcome.getI h.haloIds b
    .ok { p with branch := hid + h.snapId * branchBase, index := ipart }
  else .ok { p with branch := b, index := ipart }

/-- The loop of `FindHost`, BranchStat.cpp:85-96, from index `i` on. -/
def findFrom (h : SlaveSnap) (i : Nat) : List BranchPart → Outcome (List BranchPart)
  | [] => .ok []
  | p :: rest => do
    let q ← findOne h i p
    let qs ← findFrom h (i + 1) rest
    .ok (q :: qs)

/-- `FindHost`, BranchStat.cpp:83-97. -/
def findHost (h : SlaveSnap) (t : TargetHalo) : Outcome TargetHalo := do
  let found ← findFrom h t.nfound (t.parts.drop t.nfound)
  .ok { t with parts := t.parts.take t.nfound ++ found }

/-- The loop `for(iend=...;iend>=Nfound;iend--)`, BranchStat.cpp:164-166: entries up to the last one
with a branch. -/
def trimEnd (l : List BranchPart) : List BranchPart :=
  (l.reverse.dropWhile (fun p => p.branch == -1)).reverse

/-- `SendHost`, BranchStat.cpp:160-169: the message, and the target left behind. -/
def sendHost (sort : List BranchPart → List BranchPart) (t : TargetHalo) :
    List BranchPart × TargetHalo :=
  let tail := sort (t.parts.drop t.nfound)
  (trimEnd tail, { t with parts := t.parts.take t.nfound ++ tail })

/-- The loop over a received message, BranchStat.cpp:121-126, without the counter. -/
def storeBranches : List BranchPart → List BranchPart → Outcome (List BranchPart)
  | parts, [] => .ok parts
  | parts, h :: rest => do
    let p ← Outcome.get parts h.index
    let parts ← Outcome.set parts h.index { p with branch := h.branch }
    storeBranches parts rest

/-- State of the search for the main branch, BranchStat.cpp:133. -/
structure MainSearch where
  maxId : Int
  maxCount : Nat
  newFound : Nat

/-- One pass of the loop BranchStat.cpp:134-145. `narrow` converts a `long` to `HBTInt`. -/
def searchMain (narrow : Int → Int) (s : MainSearch) (x : Int × Nat) : MainSearch :=
  if x.1 ≠ -1 then
    if x.2 > s.maxCount then ⟨narrow x.1, x.2, s.newFound + x.2⟩
    else { s with newFound := s.newFound + x.2 }
  else s

/-- `ReduceHost`, BranchStat.cpp:98-159, with the messages in the order of their arrival. `size()-1`
wraps in `size_t` and converts back to `-1` for an empty map. -/
def reduceHost (sort : List BranchPart → List BranchPart) (iter : List Int → List (Int × Nat))
    (narrow : Int → Int) (messages : List (List BranchPart)) (t : TargetHalo) : Outcome TargetHalo := do
  let parts ← storeBranches t.parts messages.flatten
  let counter := iter (messages.flatten.map (·.branch))
  let s := counter.foldl (searchMain narrow) ⟨-1, 0, 0⟩
  let newBranches : Int := (counter.length : Int) - 1 - (if s.maxId ≠ -1 then 1 else 0)
  let cleared := (parts.drop t.nfound).map (fun p => if p.branch = s.maxId then { p with branch := -1 } else p)
  .ok { parts := parts.take t.nfound ++ sort cleared,
        nfound := t.nfound + (s.newFound - s.maxCount),
        nbranch := t.nbranch + newBranches }

/-- What one snapshot brings: the data of each slave and everything left open by the languages and
libraries. `order` is the order in which the messages arrive. Part of `branchStep`, BranchStat.cpp:216-240. -/
structure BranchEnv (P : Nat) where
  snap : Fin P → SlaveSnap
  slaveSort : Fin P → List BranchPart → List BranchPart
  rootSort : List BranchPart → List BranchPart
  iter : List Int → List (Int × Nat)
  order : List (Fin P)

/-- One pass of the main loop, BranchStat.cpp:216-240: the master's target and the slaves'. -/
def branchStep {P : Nat} (narrow : Int → Int) (env : BranchEnv P)
    (st : TargetHalo × (Fin P → TargetHalo)) : Outcome (TargetHalo × (Fin P → TargetHalo)) := do
  let got ← allRanks P (fun i => bcastTarget st.1 (st.2 i))
  let found ← allRanks P (fun i => findHost (env.snap i) (got i))
  let root ← reduceHost env.rootSort env.iter narrow
    (env.order.map (fun i => (sendHost (env.slaveSort i) (found i)).1)) st.1
  .ok (root, fun i => (sendHost (env.slaveSort i) (found i)).2)

/-- The main loop, BranchStat.cpp:216-240, over the snapshots in the order visited. -/
def branchRun {P : Nat} (narrow : Int → Int) : List (BranchEnv P) →
    TargetHalo × (Fin P → TargetHalo) → Outcome (TargetHalo × (Fin P → TargetHalo))
  | [], st => .ok st
  | e :: es, st => do
    let st' ← branchStep narrow e st
    branchRun narrow es st'

end HBT.Model
