import Verif.Spec.Types
/-!
# Specification: what reloading a catalogue gives back
-/
namespace HBT.Spec
variable {K D : Type}

/-- What is asked for: properties only, also the bound particles, or also all source particles. -/
inductive Want
  | table
  | bound
  | source
  deriving DecidableEq, Repr

/-- A subhalo after saving and reloading: all properties and the nest are unchanged; of the particles
only the ids come back (the other members have the value `blank`): none, those of the bound particles
(the first `nbound`), or all. -/
def reloaded (w : Want) (blank : D) (s : Sub K D) : Sub K D :=
  let ids : List Int := match w with
    | .table => []
    | .bound => (s.particles.take s.nbound).map Particle.id
    | .source => s.particles.map Particle.id
  { s with particles := ids.map (fun i => ⟨i, blank⟩) }

end HBT.Spec
