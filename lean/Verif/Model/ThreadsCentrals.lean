import Verif.Spec.Tickets
import Verif.Model.Threads
import Verif.Model.Centrals
/-!
# The parallel loops of `DecideCentrals` and `FeedCentrals` as programs of threads

src/subhalo_tracking.cpp:436-528. These loops come before those of `Model/Threads.lean`. A location is one member of one subhalo, the
average coordinates of a subhalo or of a halo (one location for position and velocity), one list of the membership table, the particles of one halo,
and the counter `Npro`.

Between the loops one thread (`omp single`, whose end is a barrier) sets `Npro` and appends the new subhaloes, lines 477-481. The model
starts the second loop with them in place.
-/
namespace HBT.Threads
open HBT HBT.Model

/-- The locations. What the parallel loops src/subhalo_tracking.cpp:439-521 share. -/
inductive CLoc
  /-- a member of `Subhalos[i]` -/
  | sub (i : Nat) (f : Field)
  /-- `Subhalos[i].ComovingAveragePosition` and `PhysicalAverageVelocity` -/
  | centre (i : Nat)
  /-- `MemberTable.SubGroups[h]` -/
  | group (h : Nat)
  /-- `halo_snap.Halos[h].Particles` -/
  | halo (h : Nat)
  /-- `halo_snap.Halos[h].ComovingAveragePosition` and `PhysicalAverageVelocity` -/
  | haloCentre (h : Nat)
  /-- the static variable `Npro` of `FeedCentrals` -/
  | npro
  deriving DecidableEq, Repr

/-- The values of a location; `C` are coordinates. src/subhalo_tracking.cpp:439-521. -/
@[reducible] def CLoc.Val (K D C : Type) : CLoc → Type
  | .sub _ f => f.Val K D
  | .centre _ | .haloCentre _ => C
  | .group _ => List Nat
  | .halo _ => List (Particle D)
  | .npro => Nat

variable {K D C R α : Type}

/-- What one thread does in an iteration. The loops are src/subhalo_tracking.cpp:439-521. -/
abbrev CProg (K D C α : Type) := Prog CLoc (CLoc.Val K D C) α

/-- One member of a subhalo. src/subhalo.h:24-110. -/
def rdC (i : Nat) (f : Field) : CProg K D C (f.Val K D) := load (CLoc.sub i f)
/-- Writing one member of a subhalo, src/subhalo.h:24-110. -/
def wrC (i : Nat) (f : Field) (v : f.Val K D) : CProg K D C Unit := store (CLoc.sub i f) v

/-- A computation without shared memory. Part of `decideP`, src/subhalo_tracking.cpp:442-464. -/
def liftC : Outcome α → CProg K D C α
  | .ok a => .ret a
  | _ => .fail

/-! ## `DecideCentrals` -/

/-- src/subhalo_tracking.cpp:447-448. -/
def majorP [LT K] [DecidableLT K] (limit : K) : List Nat → Nat → CProg K D C Nat
  | [], n => pure n
  | i :: is, n => do
    let m ← rdC i .mbound
    if m < limit then pure n else majorP limit is (n + 1)

/-- `KineticDistance`, src/subhalo_tracking.cpp:22-27: a function of the coordinates of halo and subhalo. -/
def distanceP (dist : C → C → R) (h i : Nat) : CProg K D C R := do
  let a ← load (CLoc.centre i)
  let b ← load (CLoc.haloCentre h)
  pure (dist b a)

/-- src/subhalo_tracking.cpp:453-461. -/
def closestP [LT R] [DecidableLT R] (dist : C → C → R) (h : Nat) : List Nat → Nat → R → Nat → CProg K D C Nat
  | [], _, _, icenter => pure icenter
  | i :: is, n, dmin, icenter => do
    let d ← distanceP dist h i
    if d < dmin then closestP dist h is (n + 1) d n else closestP dist h is (n + 1) dmin icenter

/-- src/subhalo_tracking.cpp:442-464. -/
def decideP [Mul K] [LT K] [DecidableLT K] [LT R] [DecidableLT R] (ratio : K) (dist : C → C → R) (h : Nat) : CProg K D C Unit := do
  let list ← load (CLoc.group h)
  match list with
  | [] => pure ()
  | [_] => pure ()
  | a :: b :: rest => do
    let m0 ← rdC a .mbound
    let nMajor ← majorP (m0 * ratio) (b :: rest) 1
    if 1 < nMajor then do
      let d0 ← distanceP dist h a
      let icenter ← closestP dist h ((b :: rest).take (nMajor - 1)) 1 d0 0
      if icenter ≠ 0 then do
        let list' ← liftC (swapFront (a :: b :: rest) icenter)
        store (CLoc.group h) list'
      else pure ()
    else pure ()

/-- The loop of `DecideCentrals`, src/subhalo_tracking.cpp:439-465. -/
def decidePhase [Mul K] [LT K] [DecidableLT K] [LT R] [DecidableLT R] (ratio : K) (dist : C → C → R) (nh : Nat) : List (CProg K D C Unit) :=
  (List.range nh).map (decideP ratio dist)

/-! ## `FeedCentrals` -/

/-- src/subhalo_tracking.cpp:493-500: the new subhalo has the index `subid`. -/
def bornP (snap : Int) (h subid : Nat) : CProg K D C Unit := do
  wrC subid .hostHaloId (h : Int)
  let x ← load (CLoc.haloCentre h)
  store (CLoc.centre subid) x
  let own ← rdC subid .particles
  let host ← load (CLoc.halo h)
  wrC subid .particles host
  store (CLoc.halo h) own
  let ps ← rdC subid .particles
  wrC subid .nbound ps.length
  wrC subid .snapBirth snap

/-- src/subhalo_tracking.cpp:488-500; the index is drawn in the critical section. -/
def newCentralP (snap : Int) (h : Nat) : CProg K D C Unit := do
  let subid ← draw CLoc.npro Nat.succ
  bornP snap h subid

/-- src/subhalo_tracking.cpp:504-516. The comparisons and the exchange of lines 510-515 are one reading and one writing of the vector. -/
def feedCentralP (h c : Nat) : CProg K D C Unit := do
  let own ← rdC c .particles
  if own.length = 0 then .fail
  else do
    let host ← load (CLoc.halo h)
    wrC c .particles host
    store (CLoc.halo h) own
    let ps ← rdC c .particles
    wrC c .nbound ps.length
    let old ← load (CLoc.halo h)
    let most ← liftC (Outcome.get old 0)
    let ps ← rdC c .particles
    let ps' ← liftC (promote most.id ps.length 0 ps)
    wrC c .particles ps'

/-- One iteration, src/subhalo_tracking.cpp:484-518. -/
def feedP (snap : Int) (h : Nat) : CProg K D C Unit := do
  let members ← load (CLoc.group h)
  match members with
  | [] => newCentralP snap h
  | c :: _ => feedCentralP h c

/-- The loop of `FeedCentrals`, src/subhalo_tracking.cpp:482-518. -/
def feedPhase (snap : Int) (nh : Nat) : List (CProg K D C Unit) := (List.range nh).map (feedP snap)

/-! ## The memory -/

/-- What is shared. src/subhalo_tracking.cpp:439-521. -/
structure CWorld (K D C : Type) where
  subs : List (Sub K D)
  centres : List C
  groups : List (List Nat)
  halos : List (HostHalo D)
  haloCentres : List C
  npro : Nat

/-- The memory that holds it. src/subhalo_tracking.cpp:439-521. -/
def memC (w : CWorld K D C) : Mem CLoc (CLoc.Val K D C)
  | .sub i f => (w.subs[i]?).map f.get
  | .centre i => w.centres[i]?
  | .group h => w.groups[h]?
  | .halo h => w.halos[h]?
  | .haloCentre h => w.haloCentres[h]?
  | .npro => some w.npro

end HBT.Threads
