import Mathlib.Algebra.Order.Field.Basic
import Mathlib.Algebra.Order.Group.Abs
import Mathlib.Data.Int.Cast.Basic
/-!
# Mass-weighted means, in free space and in a periodic box
-/
namespace HBT.Spec
variable {K : Type} [Field K]

/-- Sum of the masses of (mass, vector) pairs. -/
def massSum (ps : List (K × (Fin 3 → K))) : K := (ps.map Prod.fst).sum

/-- Mass-weighted mean of (mass, vector) pairs. -/
def massMean (ps : List (K × (Fin 3 → K))) (j : Fin 3) : K :=
  (ps.map (fun p => p.1 * p.2 j)).sum / massSum ps

/-- A particle of a periodic world: its position in free space and how many box lengths the
recorded position is away from it. -/
structure BoxParticle (K : Type) where
  mass : K
  pos : Fin 3 → K
  turns : Fin 3 → ℤ

/-- The particle in free space. -/
def BoxParticle.free (p : BoxParticle K) : K × (Fin 3 → K) := (p.mass, p.pos)

/-- The particle as recorded. -/
def BoxParticle.seen (B : K) (p : BoxParticle K) : K × (Fin 3 → K) := (p.mass, fun j => p.pos j + p.turns j * B)

/-- The same point of a periodic box. -/
def SameModBox (B : K) (x y : Fin 3 → K) : Prop := ∀ j, ∃ k : ℤ, y j = x j + k * B

/-- In free space all particles are closer than half a box to each other, along every axis. -/
def CompactIn [LinearOrder K] (B : K) (qs : List (BoxParticle K)) : Prop :=
  ∀ p ∈ qs, ∀ q ∈ qs, ∀ j, |p.pos j - q.pos j| < B / 2

/-- All recorded positions are inside the box. -/
def SeenInBox [LinearOrder K] (B : K) (qs : List (BoxParticle K)) : Prop :=
  ∀ p ∈ qs, ∀ j, 0 ≤ (p.seen B).2 j ∧ (p.seen B).2 j < B

end HBT.Spec
