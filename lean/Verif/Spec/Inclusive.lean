import Verif.Spec.Purge
import Verif.Spec.Run
/-!
# Specification: subhaloes that keep the particles of the subhaloes inside of them
-/
namespace HBT.Spec
variable {K D : Type}

/-- `x` belongs to a resolved subhalo of the same host with a higher rank number than `s`. -/
def InSmaller (subs : List (Sub K D)) (s : Sub K D) (x : Int) : Prop :=
  ∃ t ∈ subs, t.hostHaloId = s.hostHaloId ∧ s.rank < t.rank ∧ Resolved t ∧ ∃ p ∈ t.particles, p.id = x

/-- What moving shared particles from the front makes of a list of subhaloes: only the order of particles changes; not for orphans; and for a resolved
subhalo with a host, the particle at the front and the first other one that belongs to no smaller subhalo are exchanged (nothing
changes if there is none). -/
structure Fronted (before after : List (Sub K D)) : Prop where
  length : after.length = before.length
  each : ∀ (i : Nat) (s : Sub K D), before[i]? = some s → ∃ s', after[i]? = some s' ∧ s' = s.withParticles s'.particles ∧
    s'.particles.Perm s.particles ∧ (¬ Resolved s → s' = s) ∧
    (Resolved s → s.hostHaloId ≠ nullHalo → ∃ ids : List Int, (∀ x, x ∈ ids ↔ InSmaller before s x) ∧
      ((s' = s ∧ ∀ j, ¬ FirstOwn ids s.particles j) ∨ ∃ j, FirstOwn ids s.particles j ∧ Exchanged j s.particles s'.particles))

/-- The mass is that of as many of the particles as are counted as bound. -/
def SomeMass [MassSum K] (mass : D → K) (s : Sub K D) : Prop :=
  ∃ ps : List (Particle D), ps.Perm s.particles ∧ IsSum ((ps.take s.nbound).map (fun p => mass p.data)) s.mbound

end HBT.Spec
