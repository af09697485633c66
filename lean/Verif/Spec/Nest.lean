import Verif.Spec.Types
/-!
# Specification: nesting hierarchies

An (ordered) forest, written as first child / next sibling: `cons a inner next` is a tree with root
`a` whose subtrees are the trees of `inner`, followed by the trees of `next`.
-/
namespace HBT.Spec

/-- An ordered forest with labels in `α`. -/
inductive Forest (α : Type) where
  | nil : Forest α
  | cons (a : α) (inner next : Forest α) : Forest α
  deriving DecidableEq, Repr

namespace Forest
variable {α β : Type}

/-- All labels. -/
def nodes : Forest α → List α
  | nil => []
  | cons a k r => a :: (k.nodes ++ r.nodes)

/-- The labels of the roots. -/
def roots : Forest α → List α
  | nil => []
  | cons a _ r => a :: r.roots

/-- Two forests beside each other. -/
def append : Forest α → Forest α → Forest α
  | nil, g => g
  | cons a k r, g => cons a k (r.append g)

instance : Append (Forest α) := ⟨append⟩

/-- Relabelling. -/
def map (σ : α → β) : Forest α → Forest β
  | nil => nil
  | cons a k r => cons (σ a) (k.map σ) (r.map σ)

/-- The child relation `kids a l` ("the children of `a` are `l`, in this order") describes the
forest. -/
def Shows (kids : α → List α → Prop) : Forest α → Prop
  | nil => True
  | cons a k r => kids a k.roots ∧ k.Shows kids ∧ r.Shows kids

/-- `depth` gives the roots depth `d`, their children `d+1` and so on. -/
def Depths (depth : α → Int → Prop) : Int → Forest α → Prop
  | _, nil => True
  | d, cons a k r => depth a d ∧ k.Depths depth (d + 1) ∧ r.Depths depth d

/-- A property of each parent and child. -/
def Edges (R : α → α → Prop) : Forest α → Prop
  | nil => True
  | cons a k r => (∀ c ∈ k.roots, R a c) ∧ k.Edges R ∧ r.Edges R

/-- Number of levels. -/
def height : Forest α → Nat
  | nil => 0
  | cons _ k r => max (k.height + 1) r.height

end Forest

variable {K D : Type}

/-- The children recorded for track `t`: the nested list of the subhalo with that TrackId. -/
def trackKids (subs : List (Sub K D)) (t : Int) (l : List Int) : Prop :=
  ∃ s ∈ subs, s.trackId = t ∧ s.nested = l

/-- The depth recorded for track `t`. -/
def trackDepth (subs : List (Sub K D)) (t : Int) (d : Int) : Prop :=
  ∃ s ∈ subs, s.trackId = t ∧ s.depth = d

/-- C26: the members of host `h` in `subs` form one tree (in terms of TrackIds) with the member of
rank 0 as root; it has every member exactly once and its levels are the recorded depths. -/
def HostTree (subs : List (Sub K D)) (h : Int) : Prop :=
  ∃ (c : Int) (f : Forest Int),
    (Forest.cons c f .nil).Shows (trackKids subs) ∧
    (Forest.cons c f .nil).nodes.Perm ((subs.filter (fun s => decide (s.hostHaloId = h))).map Sub.trackId) ∧
    (∀ s ∈ subs, s.hostHaloId = h → (s.rank = 0 ↔ s.trackId = c)) ∧
    (Forest.cons c f .nil).Depths (trackDepth subs) 0

/-- C26 for one process: each host with members has such a tree, and a field subhalo has rank 0 and
nests nothing. -/
structure Hierarchy (subs : List (Sub K D)) : Prop where
  host : ∀ s ∈ subs, s.hostHaloId ≠ nullHalo → HostTree subs s.hostHaloId
  field : ∀ s ∈ subs, s.hostHaloId = nullHalo → s.rank = 0 ∧ s.nested = []

end HBT.Spec
