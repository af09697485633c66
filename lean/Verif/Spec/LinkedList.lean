import Mathlib.Algebra.Order.Field.Basic
import Mathlib.Data.Fin.VecNotation
import Mathlib.Logic.Relation
/-!
# Specification of neighbour searches and of friends-of-friends groups

Nothing here refers to grids or chains, except `InCell`, which says where a cell of a regular grid is.
-/
namespace HBT.Spec
variable {K : Type} [Field K] [LinearOrder K]

/-- All coordinates in `[0,L)`. -/
def InBox (L : K) (x : Fin 3 → K) : Prop := ∀ d, 0 ≤ x d ∧ x d < L

/-- `x` lies in cell `(c 0, c 1, c 2)` of the regular grid that cuts every side of the box
`[0,L)` in `N` equal pieces. -/
def InCell (L : K) (N : Nat) (c : Fin 3 → Nat) (x : Fin 3 → K) : Prop :=
  ∀ d, (c d : K) * (L / N) ≤ x d ∧ x d < ((c d : K) + 1) * (L / N)

/-- Squared Euclidean distance. -/
def sqDist (x y : Fin 3 → K) : K := (x 0 - y 0) ^ 2 + (x 1 - y 1) ^ 2 + (x 2 - y 2) ^ 2

/-- The copy of `x` displaced by `k` box lengths. -/
def image (L : K) (k : Fin 3 → Int) (x : Fin 3 → K) : Fin 3 → K := fun d => x d + k d * L

/-- `s` is the squared separation of `x` and `y`: the squared distance or, in a periodic box, the
smallest squared distance of `y` to an image of `x`. -/
def Separation (periodic : Bool) (L : K) (x y : Fin 3 → K) (s : K) : Prop :=
  if periodic then (∃ k, s = sqDist (image L k x) y) ∧ ∀ k, s ≤ sqDist (image L k x) y
  else s = sqDist x y

/-- `x` or one of its periodic images is closer to `y` than `r`. -/
def CloserThan (periodic : Bool) (L r : K) (x y : Fin 3 → K) : Prop :=
  if periodic then ∃ k, sqDist (image L k x) y < r ^ 2 else sqDist x y < r ^ 2

/-- `x` or one of its periodic images lies in the cylinder around `y` along the third axis with
half length `rz` and radius `rp`. -/
def InCylinder (periodic : Bool) (L rz rp : K) (x y : Fin 3 → K) : Prop :=
  if periodic then ∃ k, (image L k x 0 - y 0) ^ 2 + (image L k x 1 - y 1) ^ 2 < rp ^ 2 ∧
    |image L k x 2 - y 2| ≤ rz
  else (x 0 - y 0) ^ 2 + (x 1 - y 1) ^ 2 < rp ^ 2 ∧ |x 2 - y 2| ≤ rz

/-- Particles `p` and `q` are linked: closer than the linking length. -/
def LinkedPair (periodic : Bool) (L b : K) (pts : List (Fin 3 → K)) (p q : Nat) : Prop :=
  ∃ x y, pts[p]? = some x ∧ pts[q]? = some y ∧ CloserThan periodic L b x y

/-- Particles `p` and `q` are joined by a chain of linked particles. -/
def Joined (periodic : Bool) (L b : K) (pts : List (Fin 3 → K)) : Nat → Nat → Prop :=
  Relation.ReflTransGen (LinkedPair periodic L b pts)

end HBT.Spec
