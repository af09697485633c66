import Verif.Model.Outcome
import Verif.Spec.Types
import Mathlib.Algebra.Order.Ring.Defs
import Mathlib.Data.List.Basic
/-!
# Model of `DecideCentrals` and `FeedCentrals`

src/subhalo_tracking.cpp:436-521. The groups of the membership table are given as lists of subhalo
indices (C23 shows that the table stores them faithfully).
-/
namespace HBT.Model
variable {K D : Type}

/-! ## `DecideCentrals` -/

/-- The loop over `n_major`, src/subhalo_tracking.cpp:447-448, over the masses of the members from
the second on: the number of leading members with mass not below the limit, plus one. -/
def countMajor [LT K] [DecidableLT K] (limit : K) : List K → Nat → Nat
  | [], n => n
  | m :: ms, n => if m < limit then n else countMajor limit ms (n + 1)

/-- The search for the closest member, src/subhalo_tracking.cpp:451-461: `ds` are the kinetic
distances of members `i, i+1, ...`. -/
def closest {R : Type} [LT R] [DecidableLT R] : List R → Nat → R → Nat → Nat
  | [], _, _, icenter => icenter
  | d :: ds, i, dmin, icenter =>
    if d < dmin then closest ds (i + 1) d i else closest ds (i + 1) dmin icenter

/-- `swap(List[0], List[icenter])`, src/subhalo_tracking.cpp:462. -/
def swapFront {α : Type} (l : List α) (i : Nat) : Outcome (List α) := do
  let a ← Outcome.get l 0
  let b ← Outcome.get l i
  let l ← Outcome.set l 0 b
  Outcome.set l i a

/-- Reading one member of each listed subhalo. Part of `decideCentral`, src/subhalo_tracking.cpp:442-464. -/
def readAll {α β : Type} (f : α → β) (v : List α) : List Nat → Outcome (List β)
  | [] => .ok []
  | i :: is => do
    let a ← Outcome.get v i
    let rest ← readAll f v is
    .ok (f a :: rest)

/-- `DecideCentrals` for one host, src/subhalo_tracking.cpp:442-464. `ratio` is
`MajorProgenitorMassRatio`, `dist` is `KineticDistance` to the host halo (a function of the subhalo
index). -/
def decideCentral {R : Type} [Mul K] [LT K] [DecidableLT K] [LT R] [DecidableLT R]
    (ratio : K) (dist : Nat → R) (subs : List (Sub K D)) (list : List Nat) : Outcome (List Nat) :=
  if 1 < list.length then do
    let masses ← readAll Sub.mbound subs list
    let m0 ← Outcome.get masses 0
    let nMajor := countMajor (m0 * ratio) masses.tail 1
    if 1 < nMajor then
      let ds := (list.take nMajor).map dist
      match ds with
      | [] => .ok list
      | d0 :: rest =>
        let icenter := closest rest 1 d0 0
        if icenter ≠ 0 then swapFront list icenter else .ok list
    else .ok list
  else .ok list

/-! ## `FeedCentrals` -/

/-- `Halo_t`: the particles of a host halo. src/halo.h:15-37. -/
abbrev HostHalo (D : Type) := List (Particle D)

/-- State shared by the iterations of `FeedCentrals`: `Npro`, `Subhalos`, and the haloes.
Part of `newCentral`, src/subhalo_tracking.cpp:489-500. -/
structure FeedState (K D : Type) where
  npro : Nat
  subs : List (Sub K D)
  halos : List (HostHalo D)

/-- `for(auto &p: Particles) if(p.Id==mostbndid) { swap(p, Particles[0]); break; }`,
src/subhalo_tracking.cpp:510-515, from position `i` on (`n` positions left). -/
def promote (id : Int) : Nat → Nat → List (Particle D) → Outcome (List (Particle D))
  | 0, _, ps => .ok ps
  | n + 1, i, ps => do
    let p ← Outcome.get ps i
    if p.id = id then swapFront ps i else promote id n (i + 1) ps

/-- The new central of a halo without progenitor, src/subhalo_tracking.cpp:489-500. -/
def newCentral (snap : Int) (hostid : Nat) (st : FeedState K D) : Outcome (FeedState K D) := do
  let subid := st.npro
  let central ← Outcome.get st.subs subid
  let host ← Outcome.get st.halos hostid
  let subs ← Outcome.set st.subs subid
    { central with hostHaloId := hostid, particles := host, nbound := host.length, snapBirth := snap }
  let halos ← Outcome.set st.halos hostid central.particles
  .ok ⟨st.npro + 1, subs, halos⟩

/-- The existing central takes over the halo particles, src/subhalo_tracking.cpp:504-516. -/
def feedCentral (hostid c : Nat) (st : FeedState K D) : Outcome (FeedState K D) := do
  let central ← Outcome.get st.subs c
  let host ← Outcome.get st.halos hostid
  Outcome.assert (central.particles.length ≠ 0)
  let most ← Outcome.get central.particles 0
  let ps ← promote most.id host.length 0 host
  let subs ← Outcome.set st.subs c { central with particles := ps, nbound := host.length }
  let halos ← Outcome.set st.halos hostid central.particles
  .ok ⟨st.npro, subs, halos⟩

/-- One iteration of the loop over haloes, src/subhalo_tracking.cpp:484-518. -/
def feedOne (snap : Int) (groups : List (List Nat)) (hostid : Nat) (st : FeedState K D) :
    Outcome (FeedState K D) := do
  let members ← Outcome.get groups hostid
  match members with
  | [] => newCentral snap hostid st
  | c :: _ => feedCentral hostid c st

/-- The iterations in the order `order`. Part of `feedCentrals`, src/subhalo_tracking.cpp:468-521. -/
def feedLoop (snap : Int) (groups : List (List Nat)) : List Nat → FeedState K D → Outcome (FeedState K D)
  | [], st => .ok st
  | h :: hs, st => do
    let st ← feedOne snap groups h st
    feedLoop snap groups hs st

/-- `FeedCentrals`, src/subhalo_tracking.cpp:468-521. `order` is the order in which the OpenMP threads
run the iterations. Iterations touch different subhaloes and haloes, except for the counter `Npro`, which
is read and increased in a critical section; so each interleaving has the effect of running the
iterations one after the other in the order in which they enter the critical section. `fresh` is the
default constructed `Subhalo_t`, `nBirth` is `MemberTable.NBirth`. The new centre coordinates are left
out. -/
def feedCentrals (snap : Int) (fresh : Sub K D) (order : List Nat) (groups : List (List Nat)) (nBirth : Nat)
    (subs : List (Sub K D)) (halos : List (HostHalo D)) : Outcome (FeedState K D) :=
  feedLoop snap groups order ⟨subs.length, subs ++ List.replicate nBirth fresh, halos⟩

end HBT.Model
