import Mathlib.Data.List.Basic
/-!
# What a group catalogue says
-/
namespace HBT.Spec

/-- Cut a sequence into consecutive pieces of the given lengths. -/
def cut {α : Type} : List Nat → List α → List (List α)
  | [], _ => []
  | n :: ns, l => l.take n :: cut ns (l.drop n)

/-- The groups of a catalogue: numbered in order, group `i` owning the next `lens[i]` ids. -/
def catalogue {α : Type} (lens : List Nat) (ids : List α) : List (Nat × List α) :=
  (cut lens ids).zipIdx.map (fun x => (x.2, x.1))

/-- The particle id a group file means: its bits selected by the mask, or all bits when no mask is
set, read as a signed number. -/
def idOf {w : Nat} (mask id : BitVec w) : Int := (if mask = 0#w then id else id &&& mask).toInt

end HBT.Spec
