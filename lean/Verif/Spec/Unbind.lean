import Mathlib.Order.Defs.LinearOrder
import Mathlib.Algebra.Group.Defs
import Mathlib.Data.List.Defs
import Mathlib.Algebra.Order.Ring.Rat
import Verif.Spec.Types
import Verif.Spec.MassSum
/-!
# Specification: unbinding
-/
namespace HBT.Spec
variable {K D E : Type}

/-- `sort` sorts by increasing `key`. -/
def SortsBy {α : Type} [LE E] (key : α → E) (sort : List α → List α) : Prop :=
  ∀ l, (sort l).Perm l ∧ (sort l).Pairwise (fun a b => key a ≤ key b)

/-- C28: `l'` with count `n` is a partition of the first `len` entries of `l` by the sign of `energy`. -/
structure Partitioned {α : Type} [LE E] [Zero E] (energy : α → E) (l : List α) (len : Nat) (l' : List α) (n : Nat) : Prop where
  perm : l'.Perm l
  le : n ≤ len
  rest : ∀ j, len ≤ j → l'[j]? = l[j]?
  bound : ∀ (j : Nat) (x : α), l'[j]? = some x → j < n → energy x ≤ 0
  unbound : ∀ (j : Nat) (x : α), l'[j]? = some x → n ≤ j → j < len → 0 ≤ energy x

/-- Nothing but the bound part and the marks of death and sinking differs. -/
structure SameTrack (s s' : Sub K D) : Prop where
  trackId : s'.trackId = s.trackId
  host : s'.hostHaloId = s.hostHaloId
  rank : s'.rank = s.rank
  depth : s'.depth = s.depth
  lastMax : s'.lastMaxMass = s.lastMaxMass
  snapMax : s'.snapMaxMass = s.snapMaxMass
  isolation : s'.snapIsolation = s.snapIsolation
  birth : s'.snapBirth = s.snapBirth
  nested : s'.nested = s.nested

/-- The iteration stops when nothing has changed: with `BoundMassPrecision` at most 1 (`stops_exact`, `C75_stops`). `fl` is the rounding. -/
def Stops (fl : ℚ → ℚ) (prec : ℚ) : Prop := ∀ n : Nat, fl (fl n * prec) ≤ fl n

/-- No bound particle is cut off: with `SourceSubRelaxFactor` at least 1, or a little more with rounding (`keeps_exact`, `C75_keeps`). -/
def Keeps (fl : ℚ → ℚ) (relax : ℚ) : Prop := ∀ n : Nat, (n : ℚ) ≤ fl (fl n * relax)

/-- The mass of the bound particles is the mass of the subhalo. -/
def BoundMass [MassSum K] (mass : D → K) (s : Sub K D) : Prop :=
  IsSum ((s.particles.take s.nbound).map (fun p => mass p.data)) s.mbound

/-- A subhalo after unbinding that is resolved. `src` are the particles at the start, `energy k i` is
the energy of `src[i]` in iteration `k`, `last` the last iteration. -/
structure BoundPart [LE E] [Zero E] (minNum : Nat) (energy : Nat → Nat → E) (src : List (Particle D))
    (last : Nat) (pids : List Nat) (s' : Sub K D) : Prop where
  enough : minNum ≤ s'.nbound
  le : s'.nbound ≤ s'.particles.length
  alive : s'.snapDeath = nullSnap
  free : s'.sinkTrackId = nullTrack
  /-- `pids` tells where each particle was at the start -/
  perm : pids.Perm (List.range src.length)
  from_ : List.Forall₂ (fun i p => src[i]? = some p) pids s'.particles
  /-- the bound particles were never found unbound -/
  bound : ∀ i ∈ pids.take s'.nbound, ∀ k ≤ last, energy k i ≤ 0
  /-- the others were, in some iteration -/
  unbound : ∀ i ∈ pids.drop s'.nbound, ∃ k ≤ last, 0 ≤ energy k i

/-- A subhalo after unbinding in snapshot `snap` that is not resolved. -/
structure Orphaned [LT E] [Zero E] (minNum : Nat) (energy : Nat → Nat → E) (snap : Int) (s s' : Sub K D) : Prop where
  /-- one particle is bound, if there is any -/
  one : s'.nbound = min 1 s.particles.length
  /-- it is the one that was most bound -/
  first : s'.particles.head?.map Particle.id = s.particles.head?.map Particle.id
  /-- the snapshot of death is this one, unless it was dead before -/
  dead : s'.snapDeath = if s.snapDeath = nullSnap then snap else s.snapDeath
  sink : s'.sinkTrackId = s.sinkTrackId ∧ s'.snapSink = s.snapSink
  /-- less than `minNum` particles have negative energy in all iterations -/
  few : ∃ last, ∀ l : List Nat, l.Nodup → (∀ i ∈ l, i < s.particles.length ∧ ∀ k ≤ last, energy k i < 0) → l.length < minNum

end HBT.Spec
