import Verif.Spec.GroupFile
/-!
# Specification: masses and radii of groups in catalogues of `subfind` (C74)
-/
namespace HBT.Spec

/-- The definitions of the size of a group. -/
inductive VirKind
  | mean200
  | crit200
  | topHat
  deriving DecidableEq

/-- Their names. -/
def VirKind.name : VirKind → String
  | .mean200 => "Mean200"
  | .crit200 => "Crit200"
  | .topHat => "TopHat"

/-- Masses and radii of the groups in one file, as words of `w` bits, and what is stored between the offsets and these. -/
structure VirialData (w : Nat) where
  /-- masses and positions of the groups (version 3): four words for each group -/
  massPos : List (BitVec w)
  /-- numbers of the subhaloes (version 2): three for each subhalo -/
  subs : List (BitVec 32)
  /-- mass and radius of each group, for each kind -/
  mass : VirKind → List (BitVec w)
  radius : VirKind → List (BitVec w)
  /-- what follows -/
  tail : List Byte

/-- What follows the offsets in the `tab` file. -/
def virialRest {w : Nat} (fe v3 : Bool) (d : VirialData w) : List Byte :=
  (if v3 then d.massPos.flatMap (wordBytes fe) else d.subs.flatMap (bytes32 fe)) ++
  (d.mass .mean200).flatMap (wordBytes fe) ++ (d.radius .mean200).flatMap (wordBytes fe) ++
  (d.mass .crit200).flatMap (wordBytes fe) ++ (d.radius .crit200).flatMap (wordBytes fe) ++
  (d.mass .topHat).flatMap (wordBytes fe) ++ (d.radius .topHat).flatMap (wordBytes fe) ++ d.tail

/-- The `tab` file has one mass and one radius for each of its groups. -/
structure VirialFits {w wi : Nat} (fe v3 : Bool) (f : RawGroups wi) (d : VirialData w) : Prop where
  rest : f.rest = virialRest fe v3 d
  mass : ∀ k, (d.mass k).length = f.lens.length
  radius : ∀ k, (d.radius k).length = f.lens.length
  massPos : v3 = true → d.massPos.length = 4 * f.lens.length
  subs : v3 = false → d.subs.length = 3 * f.nsub.toNat ∧ 2 * f.lens.length + 3 * f.nsub.toNat < 2 ^ 31

end HBT.Spec
