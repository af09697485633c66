import Verif.Spec.LinkedList
import Mathlib.Algebra.BigOperators.Group.List.Basic
/-!
# Specification of oct-trees

A tree hands out its content by a walk over numbered things: numbers below `N` are particles, the
others are nodes. Nothing here says how a tree is built or stored.
-/
namespace HBT.Spec

/-- The links of a walk: what follows a particle, and what comes first inside a node. -/
structure Links where
  after : Nat → Option Int
  inside : Nat → Option Int

/-- Walking from `a`, entering every node, one meets the things `l` and arrives at `z`. -/
inductive Path (N : Nat) (L : Links) : Int → Int → List Nat → Prop where
  | stop (a : Int) : Path N L a a []
  | particle (p : Nat) (b z : Int) (l : List Nat) : p < N → L.after p = some b → Path N L b z l →
      Path N L p z (p :: l)
  | node (n : Nat) (b z : Int) (l : List Nat) : N ≤ n → L.inside n = some b → Path N L b z l →
      Path N L n z (n :: l)

variable {K : Type} [Field K] [LinearOrder K]

/-- Cutting the interval of half length `h` around `c` in halves, again and again: the centre of the piece
that holds `x` after `m` cuts (points on a cut belong to the lower piece). -/
def pieceCentre (x h c : K) : Nat → K
  | 0 => c
  | m + 1 => if x > pieceCentre x h c m then pieceCentre x h c m + h / 2 ^ (m + 1)
      else pieceCentre x h c m - h / 2 ^ (m + 1)

/-- The number (0 to 7) of the octant that holds `x` at the `m`-th cut of the cube of half side `h`
around `c`. -/
def octDigit (x : Fin 3 → K) (h : K) (c : Fin 3 → K) (m : Nat) : Nat :=
  (if x 0 > pieceCentre (x 0) h (c 0) m then 1 else 0) + 2 * (if x 1 > pieceCentre (x 1) h (c 1) m then 1 else 0) +
    4 * (if x 2 > pieceCentre (x 2) h (c 2) m then 1 else 0)

/-- The smallest cube around the first `N` points, centred on their bounding box: `h` is half the side,
`c` the centre. -/
def RootCube (x : Nat → Fin 3 → K) (N : Nat) (h : K) (c : Fin 3 → K) : Prop :=
  ∃ lo hi : Fin 3 → K,
    (∀ d, (∃ p < N, x p d = lo d) ∧ (∃ p < N, x p d = hi d) ∧ ∀ p < N, lo d ≤ x p d ∧ x p d ≤ hi d) ∧
    (∀ d, c d = (lo d + hi d) / 2) ∧ (∀ d, hi d - lo d ≤ 2 * h) ∧ ∃ d, hi d - lo d = 2 * h

/-- Total mass of the particles of a list. -/
def totalMass (m : Nat → K) (l : List Nat) : K := (l.map m).sum

/-- `s` is the centre of mass of the particles of a list. -/
def IsCentre (m : Nat → K) (x : Nat → Fin 3 → K) (l : List Nat) (s : Fin 3 → K) : Prop :=
  ∀ d, totalMass m l * s d = (l.map (fun p => m p * x p d)).sum

/-- Particles taken together as one body: who, their centre of mass and its squared separation from
the target. -/
structure Cluster (K : Type) where
  members : List Nat
  centre : Fin 3 → K
  sep2 : K

/-- A cluster may stand for its members: it is a single particle, or its members lie in a cube whose side
is at most `θ` times the distance of the centre of mass from the target (`angle2` is `θ²`). -/
def Cluster.Allowed (angle2 : K) (x : Nat → Fin 3 → K) (cl : Cluster K) : Prop :=
  (∃ p, cl.members = [p]) ∨
  ∃ len, 0 ≤ len ∧ (∀ p ∈ cl.members, ∀ q ∈ cl.members, ∀ d, |x p d - x q d| ≤ len) ∧ len ^ 2 ≤ angle2 * cl.sep2

/-- Clusters that may stand for the particles of the list `l` as seen from `target`: every particle in
exactly one cluster. -/
structure Clustering (periodic : Bool) (L angle2 : K) (m : Nat → K) (x : Nat → Fin 3 → K) (target : Fin 3 → K)
    (l : List Nat) (cls : List (Cluster K)) : Prop where
  parts : (cls.map Cluster.members).flatten.Perm l
  nonempty : ∀ cl ∈ cls, cl.members ≠ []
  centre : ∀ cl ∈ cls, IsCentre m x cl.members cl.centre
  sep : ∀ cl ∈ cls, Separation periodic L cl.centre target cl.sep2
  allowed : ∀ cl ∈ cls, cl.Allowed angle2 x

end HBT.Spec
