import Mathlib.Algebra.Field.Basic
import Mathlib.Algebra.BigOperators.Group.List.Basic
import Mathlib.Order.Defs.LinearOrder
import Mathlib.Data.List.Perm.Basic
import Verif.Spec.Average
/-!
# Specification: binding energies

Specification for C76.
-/
namespace HBT
variable {K : Type} [Field K]

/-- What the energy of a particle depends on (a part of `Particle_t`, src/datatypes.h): mass, position, velocity and thermal energy. -/
structure Body (K : Type) where
  mass : K
  pos : Fin 3 → K
  vel : Fin 3 → K
  thermal : K

/-- A frame of reference: a point and its velocity. -/
structure Frame (K : Type) where
  pos : Fin 3 → K
  vel : Fin 3 → K

namespace Spec

/-- The specific energy of `b` in the frame `f`: kinetic energy, with the Hubble flow `hubble` times the way from the frame's origin, the
potentials of the bodies `others`, and thermal energy if wanted. `away x y` is the way from `y` to `x`; `field x o` is the potential of `o` at `x`. -/
def specificEnergy (away : (Fin 3 → K) → (Fin 3 → K) → Fin 3 → K) (field : (Fin 3 → K) → K × (Fin 3 → K) → K) (hubble : K) (warm : Bool)
    (f : Frame K) (others : List (Body K)) (b : Body K) : K :=
  ((b.vel 0 - f.vel 0 + hubble * away b.pos f.pos 0) ^ 2 + (b.vel 1 - f.vel 1 + hubble * away b.pos f.pos 1) ^ 2 +
    (b.vel 2 - f.vel 2 + hubble * away b.pos f.pos 2) ^ 2) / 2 + (others.map (fun o => field b.pos (o.mass, o.pos))).sum +
    if warm then b.thermal else 0

/-- The bodies `l` fall into those that are bound and those that are not, as far as energies can be told that are wrong by up to `slack`. With `slack` zero
a body of energy 0 may be on either side. -/
structure SplitWithin [LE K] (slack : Body K → K) (energy : List (Body K) → Body K → K) (l kept gone : List (Body K)) : Prop where
  parts : (kept ++ gone).Perm l
  bound : ∀ b ∈ kept, ∀ others, (b :: others).Perm l → energy others b ≤ slack b
  unbound : ∀ b ∈ gone, ∀ others, (b :: others).Perm l → -slack b ≤ energy others b

/-- Iterative unbinding of the bodies `l`, from the frame `f` on. The bodies that are not bound are removed until enough of them stay; each time the
energies are those in the centre-of-mass frame of the bodies that stayed, with the gravity of these bodies only. With fewer than `minNum` bodies
nothing is bound (`none`). Energies may be wrong by up to `slack`. -/
inductive UnbindsWithin [LE K] (slack : Body K → K) (energy : Frame K → List (Body K) → Body K → K) (Centre : List (Body K) → Frame K → Prop) (minNum : Nat)
    (Enough : Nat → Nat → Prop) : Frame K → List (Body K) → Option (List (Body K) × Frame K) → Prop
  | disrupted {f : Frame K} {l kept gone : List (Body K)} (split : SplitWithin slack (energy f) l kept gone) (few : kept.length < minNum) :
      UnbindsWithin slack energy Centre minNum Enough f l none
  | converged {f g : Frame K} {l kept gone : List (Body K)} (split : SplitWithin slack (energy f) l kept gone) (many : minNum ≤ kept.length)
      (enough : Enough l.length kept.length) (centre : Centre kept g) : UnbindsWithin slack energy Centre minNum Enough f l (some (kept, g))
  | again {f g : Frame K} {l kept gone : List (Body K)} {r : Option (List (Body K) × Frame K)} (split : SplitWithin slack (energy f) l kept gone)
      (many : minNum ≤ kept.length) (more : ¬ Enough l.length kept.length) (centre : Centre kept g)
      (rest : UnbindsWithin slack energy Centre minNum Enough g kept r) : UnbindsWithin slack energy Centre minNum Enough f l r

/-- With exact energies. -/
abbrev Split [LE K] (energy : List (Body K) → Body K → K) (l kept gone : List (Body K)) : Prop := SplitWithin (fun _ => 0) energy l kept gone

/-- Unbinding with exact energies. -/
abbrev Unbinds [LE K] (energy : Frame K → List (Body K) → Body K → K) (Centre : List (Body K) → Frame K → Prop) (minNum : Nat) (Enough : Nat → Nat → Prop)
    (f : Frame K) (l : List (Body K)) (r : Option (List (Body K) × Frame K)) : Prop := UnbindsWithin (fun _ => 0) energy Centre minNum Enough f l r

/-- `f` is the centre-of-mass frame of `l` in free space. -/
def CentreOf (l : List (Body K)) (f : Frame K) : Prop :=
  f.pos = massMean (l.map (fun b => (b.mass, b.pos))) ∧ f.vel = massMean (l.map (fun b => (b.mass, b.vel)))

/-- `f` is the centre-of-mass frame of `l` in a periodic box of size `B`; `free x` is the place in free space of what is recorded at `x`. -/
def CentreInBox (B : K) (free : (Fin 3 → K) → Fin 3 → K) (l : List (Body K)) (f : Frame K) : Prop :=
  SameModBox B (massMean (l.map (fun b => (b.mass, free b.pos)))) f.pos ∧ f.vel = massMean (l.map (fun b => (b.mass, b.vel)))

end Spec
end HBT
