import Verif.Model.GroupBytes
/-!
# Model of src/io/gadget_virial_io.h

`LoadVirial` reads masses and radii of the groups from the files of `subfind`. The reals have `w` bits (`MyReal`) and are
kept as words.
-/
namespace HBT.Model
open HBT.Spec (GroupDir)

/-- `itype`, src/io/gadget_virial_io.h:14-22. -/
def virType (virtype : String) : Outcome Nat :=
  if virtype = "Mean200" then .ok 0
  else if virtype = "Crit200" then .ok 1
  else if virtype = "TopHat" then .ok 2
  else .abort

/-- `Ngroups`, `TotNgroups`, `NFiles` and `Nsub` among the members of the head, src/io/gadget_virial_io.h:49-64. -/
def decodeVirHead (le v3 : Bool) : List (List (List Byte)) → Outcome (Int × Int × Int × Int)
  | [g] :: [x] :: [y] :: [z] :: ws =>
    if v3 then
      match ws with
      | [n] :: [s] :: _ => .ok ((word32 le g).toInt, (word32 le x).toInt, (word32 le n).toInt, (word32 le s).toInt)
      | _ => .ub
    else
      match ws with
      | [s] :: _ => .ok ((word32 le g).toInt, (word32 le y).toInt, (word32 le z).toInt, (word32 le s).toInt)
      | _ => .ub
  | _ => .ub

/-- `Mvir` and `Rvir`, once they have a size, with `Nload`. Part of `readVirArrays`, src/io/gadget_virial_io.h:81-88. -/
structure VirBuf (w : Nat) where
  total : Nat
  mvir : List (BitVec w)
  rvir : List (BitVec w)
  nload : Nat
  deriving DecidableEq

/-- The words of `fread_swap` into the vector at `Nload`. Part of `readVirArrays`, src/io/gadget_virial_io.h:81-88. -/
def putAt {α : Type} (v : List α) (at_ : Nat) (x : List α) : List α := v.take at_ ++ x ++ v.drop (at_ + x.length)

/-- The two reads at the end of the body of the loop, src/io/gadget_virial_io.h:81-88: both vectors are written from `Nload` on, whatever
their size is. (Where the file ends early and the groups would not have fitted either, the model says undefined although the
read may end before.) -/
def readVirArrays (w : Nat) (le swap : Bool) (ngroups : Nat) (f : File) (b : VirBuf w) : Outcome (VirBuf w) :=
  if b.mvir.length < b.nload + ngroups ∨ b.rvir.length < b.nload + ngroups then .ub
  else do
    let (m, f) ← freadOrExit le (w / 8) ngroups f swap
    let (r, _) ← freadOrExit le (w / 8) ngroups f swap
    .ok { b with
      mvir := putAt b.mvir b.nload (m.map (fun x => BitVec.ofNat w (loadNat le x)))
      rvir := putAt b.rvir b.nload (r.map (fun x => BitVec.ofNat w (loadNat le x)))
      nload := b.nload + ngroups }

/-- `resize` at the first file, src/io/gadget_virial_io.h:70-75. A negative number is no size of a vector (an exception). The vectors that are passed are
taken to be empty. -/
def virResize {w : Nat} (tot : Int) : Option (VirBuf w) → Outcome (VirBuf w)
  | some b => .ok b
  | none => if tot < 0 then .abort else .ok ⟨tot.toNat, List.replicate tot.toNat 0, List.replicate tot.toNat 0, 0⟩

/-- One file, src/io/gadget_virial_io.h:43-91. `b` is `none` before the first. Negative counts are not followed; `2*Ngroups+3*Nsub` is an `int`. -/
def readVirFile (w : Nat) (le : Bool) (fmt : String) (itype : Nat) (dir : GroupDir) (info : GroupInfo) (i : Nat) (b : Option (VirBuf w)) :
    Outcome (VirBuf w) := do
  let c ← openGroupFile dir info .tab i
  let (ws, f) ← readMembers le info.swap (tabFormat (isGroupV3 fmt) true) ⟨c, 0⟩
  let (ngroups, tot, nfiles, nsub) ← decodeVirHead le (isGroupV3 fmt) ws
  if (info.count : Int) ≠ nfiles then .abort
  else do
    let b ← virResize tot b
    if ngroups < 0 ∨ nsub < 0 then .ub
    else if isGroupV3 fmt = false ∧ 2 ^ 31 ≤ 2 * ngroups + 3 * nsub then .ub
    else
      let f := f.seekCur (if isGroupV3 fmt then (4 * 2 + (w / 8 : Nat) * 4) * ngroups else 4 * (2 * ngroups + 3 * nsub))
      let f := f.seekCur ((w / 8 : Nat) * ngroups * 2 * itype)
      readVirArrays w le info.swap ngroups.toNat f b

/-- The loop over the files, src/io/gadget_virial_io.h:42-92: `n` files from `i` on. -/
def readVirFiles (w : Nat) (le : Bool) (fmt : String) (itype : Nat) (dir : GroupDir) (info : GroupInfo) : Nat → Nat → Option (VirBuf w) → Outcome (Option (VirBuf w))
  | 0, _, b => .ok b
  | n + 1, i, b => do
    let b ← readVirFile w le fmt itype dir info i b
    readVirFiles w le fmt itype dir info n (i + 1) (some b)

/-- `LoadVirial`, src/io/gadget_virial_io.h:9-100. `assert(IsSubFile)` ends the program. (Without files the numbers compared at 93 are not
initialised.) -/
def loadVirial (w : Nat) (le : Bool) (fmt : String) (dir : GroupDir) (virtype : String) : Outcome (List (BitVec w) × List (BitVec w)) := do
  let itype ← virType virtype
  let info ← findGroupFiles le fmt dir
  if info.place.sub = false then .abort
  else do
    let b ← readVirFiles w le fmt itype dir info info.count 0 none
    match b with
    | none => .ub
    | some b => if b.nload ≠ b.total then .abort else .ok (b.mvir, b.rvir)

end HBT.Model
