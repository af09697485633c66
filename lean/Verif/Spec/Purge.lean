import Verif.Spec.Types
/-!
# The most-bound particle of a subhalo that shares particles with smaller ones
-/
namespace HBT.Spec
variable {K D : Type}

/-- `l'` is `l` with the particles at `0` and `i` exchanged. -/
def Exchanged {α : Type} (i : Nat) (l l' : List α) : Prop :=
  l'.length = l.length ∧ l'[0]? = l[i]? ∧ l'[i]? = l[0]? ∧ ∀ j, j ≠ 0 → j ≠ i → l'[j]? = l[j]?

/-- `i` is the first place after the front with a particle that is not among `ids`. -/
def FirstOwn (ids : List Int) (ps : List (Particle D)) (i : Nat) : Prop :=
  i ≠ 0 ∧ (∃ p, ps[i]? = some p ∧ p.id ∉ ids) ∧ ∀ j, j ≠ 0 → j < i → ∀ p, ps[j]? = some p → p.id ∈ ids

/-- The ids of the particles of the members that come after place `k` of the group and are no orphans. -/
def laterIds (subs : List (Sub K D)) (g : List Nat) (k : Nat) : List Int :=
  ((g.drop (k + 1)).filterMap (fun c => subs[c]?)).flatMap (fun s => if 1 < s.nbound then s.particles.map Particle.id else [])

end HBT.Spec
