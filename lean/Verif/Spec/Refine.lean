import Mathlib.Algebra.Group.Defs
import Verif.Spec.Unbind
import Verif.Spec.Mask
/-!
# Specification: unbinding a whole hierarchy
-/
namespace HBT.Spec
variable {K D : Type}

/-- The ids of the bound particles of a subhalo. -/
def boundIds (s : Sub K D) : List Int := (s.particles.take s.nbound).map Particle.id

/-- The lists `f s` of the members `g`, one after the other. -/
def gather (f : Sub K D → List Int) (subs : List (Sub K D)) (g : List Nat) : List Int :=
  g.flatMap (fun i => match subs[i]? with | some s => f s | none => [])

/-- Orphans have at most one particle. -/
def OrphansSingle (subs : List (Sub K D)) : Prop := ∀ s ∈ subs, ¬ Resolved s → s.particles.length ≤ 1

/-- What the refinement of snapshot `snap` leaves of a subhalo `s`. -/
structure RefinedSub [MassSum K] (minNum : Nat) (mass : D → K) (snap : Int) (s s' : Sub K D) : Prop where
  same : SameTrack s s'
  le : s'.nbound ≤ s'.particles.length
  /-- resolved or an orphan (or nothing at all) -/
  two : minNum ≤ s'.nbound ∨ (s'.nbound ≤ 1 ∧ s'.particles.length = s'.nbound)
  death : s'.snapDeath = if minNum ≤ s'.nbound then nullSnap else if s.snapDeath = nullSnap then snap else s.snapDeath
  sink : s'.sinkTrackId = if minNum ≤ s'.nbound then nullTrack else s.sinkTrackId
  snapSink : s'.snapSink = if minNum ≤ s'.nbound ∧ s.sinkTrackId ≠ nullTrack then nullSnap else s.snapSink
  /-- an orphan keeps the particle that was the most bound one -/
  first : s'.nbound ≤ 1 → s.particles ≠ [] → s'.particles.head?.map Particle.id = s.particles.head?.map Particle.id
  mass_ : (Resolved s ∨ s.particles.length ≤ 1) → BoundMass mass s'

/-- C30 for the members `g` of one host. -/
structure ExclusiveBound (g : List Nat) (subs : List (Sub K D)) : Prop where
  once : ∀ i ∈ g, ∀ s, subs[i]? = some s → Resolved s → (boundIds s).Nodup
  exclusive : ∀ i ∈ g, ∀ j ∈ g, i ≠ j → ∀ s t, subs[i]? = some s → subs[j]? = some t → Resolved s → Resolved t →
    ∀ x ∈ boundIds s, x ∉ boundIds t

end HBT.Spec
