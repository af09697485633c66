import Verif.Spec.GadgetFile
/-!
# Specification: group catalogues of the formats `gadget2_*` and `gadget3_*`

What a group finder writes: for each snapshot one or several pairs of files, `tab` with the lengths
of the groups and `ids` with the ids of their particles.
-/
namespace HBT.Spec

/-- One pair of files. Ids have `w` bits. -/
structure RawGroups (w : Nat) where
  /-- the lengths of the groups -/
  lens : List Nat
  /-- the offsets of the groups (one for each) -/
  offsets : List (BitVec 32)
  /-- the particles of the groups, one group after the other -/
  ids : List (BitVec w)
  /-- the number of groups in all files -/
  totGroups : BitVec 32
  /-- the number of ids in all files -/
  totIds : BitVec 64
  /-- numbers of subhaloes, in files of `subfind` -/
  nsub : BitVec 32
  totNsub : BitVec 32
  /-- the number of ids in earlier files -/
  before : BitVec 32
  /-- what follows in the `tab` file -/
  rest : List Byte

/-- The bytes of a word of `w` bits. -/
def wordBytes {w : Nat} (fe : Bool) (x : BitVec w) : List Byte := intBytes fe (w / 8) x.toNat

/-- The `tab` file of a catalogue of `n` files, in version 3 or 2 of the format, with numbers of
subhaloes (`sub`) or without. -/
def tabBytes {w : Nat} (fe v3 sub : Bool) (n : Nat) (f : RawGroups w) : List Byte :=
  (if v3 then bytes32 fe (BitVec.ofNat 32 f.lens.length) ++ bytes32 fe f.totGroups ++
      bytes32 fe (BitVec.ofNat 32 f.ids.length) ++ wordBytes fe f.totIds ++ bytes32 fe (BitVec.ofNat 32 n)
    else bytes32 fe (BitVec.ofNat 32 f.lens.length) ++ bytes32 fe (BitVec.ofNat 32 f.ids.length) ++
      bytes32 fe f.totGroups ++ bytes32 fe (BitVec.ofNat 32 n)) ++
  (if sub then bytes32 fe f.nsub ++ bytes32 fe f.totNsub else []) ++
  f.lens.flatMap (fun l => bytes32 fe (BitVec.ofNat 32 l)) ++ f.offsets.flatMap (bytes32 fe) ++ f.rest

/-- The beginning of the `ids` file. -/
def idsHeader {w : Nat} (fe v3 : Bool) (n : Nat) (f : RawGroups w) : List Byte :=
  if v3 then bytes32 fe (BitVec.ofNat 32 f.lens.length) ++ bytes32 fe f.totGroups ++
      bytes32 fe (BitVec.ofNat 32 f.ids.length) ++ wordBytes fe f.totIds ++ bytes32 fe (BitVec.ofNat 32 n) ++
      bytes32 fe f.before
    else bytes32 fe (BitVec.ofNat 32 f.lens.length) ++ bytes32 fe (BitVec.ofNat 32 f.ids.length) ++
      bytes32 fe f.totGroups ++ bytes32 fe (BitVec.ofNat 32 n)

/-- The `ids` file. -/
def idsBytes {w : Nat} (fe v3 : Bool) (n : Nat) (f : RawGroups w) : List Byte :=
  idsHeader fe v3 n f ++ f.ids.flatMap (wordBytes fe)

/-- Where the files of a snapshot may be (`NNN` is the number of the snapshot), in the order in
which the program looks for them. -/
inductive Place
  /-- `groups_NNN/subhalo_tab_NNN.0`, `.1`, … -/
  | subGroups
  /-- `groups_NNN/group_tab_NNN.0`, … -/
  | fofGroups
  /-- `snapdir_NNN/group_tab_NNN.0`, … -/
  | fofSnapdir
  /-- `subhalo_tab_NNN` -/
  | subFlat
  /-- `group_tab_NNN` -/
  | fofFlat
  deriving DecidableEq

/-- The files of `subfind`. -/
def Place.sub : Place → Bool
  | .subGroups => true
  | .subFlat => true
  | _ => false

/-- There are several files. -/
def Place.numbered : Place → Bool
  | .subFlat => false
  | .fofFlat => false
  | _ => true

/-- The places in order. -/
def Place.all : List Place := [.subGroups, .fofGroups, .fofSnapdir, .subFlat, .fofFlat]

inductive GroupKind
  | tab
  | ids
  deriving DecidableEq

/-- The directories with the catalogue of a snapshot: the content of the file of a place, kind and
number (`none`: the name without a number), and how many names at a place begin like a numbered
`tab` file. -/
structure GroupDir where
  file : Place → GroupKind → Option Nat → Option (List Byte)
  count : Place → Nat

/-- The name under which file `i` is expected. -/
def Place.number (p : Place) (i : Nat) : Option Nat := if p.numbered then some i else none

/-- The directories hold the given files at place `p`, and nothing at the places that come before:
several numbered files, or a single one without a number. -/
structure Stored {w : Nat} (dir : GroupDir) (p : Place) (fe v3 : Bool) (files : List (RawGroups w)) : Prop where
  first : ∀ q ∈ Place.all.takeWhile (fun q => decide (q ≠ p)), dir.file q .tab (q.number 0) = none
  several : if p.numbered then 1 < files.length else files.length = 1
  count : p.numbered = true → dir.count p = files.length
  tab : ∀ i f, files[i]? = some f → dir.file p .tab (p.number i) = some (tabBytes fe v3 p.sub files.length f)
  ids : ∀ i f, files[i]? = some f → dir.file p .ids (p.number i) = some (idsBytes fe v3 files.length f)

/-- The counts fit in the format, and there is an offset for each group. -/
structure RawGroups.WellFormed {w : Nat} (f : RawGroups w) : Prop where
  offsets : f.offsets.length = f.lens.length
  groups : f.lens.length < 2 ^ 31
  lens : ∀ l ∈ f.lens, l < 2 ^ 31
  ids : f.ids.length < 2 ^ 31

/-- The name of a format: version 3 or 2, ids of 64 or 32 bits. -/
def formatName (v3 long : Bool) : String :=
  match v3, long with
  | true, true => "gadget3_long"
  | true, false => "gadget3_int"
  | false, true => "gadget2_long"
  | false, false => "gadget2_int"

/-- The width of ids. -/
def idWidth (long : Bool) : Nat := if long then 64 else 32

end HBT.Spec
