import Verif.Spec.Binding
/-!
# Specification: bodies standing for more bodies

Specification for C80.
-/
namespace HBT.Spec
variable {K : Type} [Field K]

/-- The first `q` bodies of `l` in place of all of them: each has the mass of `l.length / q` bodies like itself. -/
def standIns (q : Nat) (l : List (Body K)) : List (Body K) := (l.take q).map (fun b => { b with mass := b.mass * ((l.length : K) / q) })

/-- The bodies of which the potential is computed, for the bodies `l`: a sample of `q` that stand for all, if there are more than `q`. -/
def sampleOf (q : Nat) (l : List (Body K)) : List (Body K) := if 0 < q ∧ q < l.length then standIns q l else l

/-- The bodies `l` are in the order of the energies each has in the gravity of the others, as far as energies can be told that are wrong by up to `slack`. -/
def InOrderWithin [LE K] (slack energy : List (Body K) → Body K → K) (l : List (Body K)) : Prop :=
  ∀ i j b c, i < j → l[i]? = some b → l[j]? = some c → energy (l.eraseIdx i) b - slack (l.eraseIdx i) b ≤ energy (l.eraseIdx j) c + slack (l.eraseIdx j) c

end HBT.Spec
