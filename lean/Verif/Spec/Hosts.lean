import Verif.Spec.Types
/-!
# Specification of host assignment
-/
namespace HBT.Spec
variable {K D : Type}

/-- Where a subhalo `s` found on rank `r0` has to end (rank `r`, host `h`), given on each rank `q` the
local halo index `hash q pid` of a particle (negative if it is in no halo of `q`) and whether the
particle is in the snapshot part of `q`. -/
structure IsPlace {P : Nat} (hash : Fin P → Int → Int) (inSnap : Fin P → Int → Bool) (r0 : Fin P)
    (s : Sub K D) (r : Fin P) (h : Int) : Prop where
  /-- a subhalo without particles stays, as a field subhalo -/
  empty : s.particles = [] → r = r0 ∧ h = -1
  /-- a subhalo whose first particle is in a halo joins a rank with that halo, which is its host -/
  halo : ∀ p ps, s.particles = p :: ps → (∃ q, 0 ≤ hash q p.id) → 0 ≤ hash r p.id ∧ h = hash r p.id
  /-- without moving if the halo is on its own rank -/
  stays : ∀ p ps, s.particles = p :: ps → 0 ≤ hash r0 p.id → r = r0
  /-- a subhalo whose first particle is in no halo becomes a field subhalo on a rank having the
  particle -/
  field : ∀ p ps, s.particles = p :: ps → (∀ q, hash q p.id < 0) → (∃ q, inSnap q p.id = true) →
    h = -1 ∧ inSnap r p.id = true
  /-- a subhalo whose first particle is nowhere gets host `-2` -/
  nowhere : ∀ p ps, s.particles = p :: ps → (∀ q, hash q p.id < 0) → (∀ q, inSnap q p.id = false) → h = -2

/-- `s` with another host. -/
def withHost (s : Sub K D) (h : Int) : Sub K D := { s with hostHaloId := h }

end HBT.Spec
