import Verif.Model.Mpi
/-!
# Model of src/io/gadget_group_io.cpp: reading a group catalogue on all processes

A catalogue is a list of files. Of each file the model keeps the number of files recorded in the
header, the lengths of the groups and the particle ids; how these are laid out in bytes, which file
names are tried and the detection of the byte order are in `Model/GroupBytes.lean`. Group lengths and counts are
natural numbers; `HBTInt` and `int` arithmetic does not overflow. The throttle around the reading
loop (lines 415-421) is modelled in `Model/Throttle.lean`.
-/
namespace HBT.Model

/-- What `GroupFileReader_t::Read` finds in one pair of `tab` and `ids` files
(src/io/gadget_group_io.cpp:157-266). `w` is the width of `PIDtype_t` (32 or 64). -/
structure GroupFile (w : Nat) where
  nfiles : Nat
  len : List Nat
  ids : List (BitVec w)

/-- `FileAssignment_t`, src/io/gadget_group_io.cpp:287-300. -/
structure FileAssignment where
  ifileBegin : Int
  ifileEnd : Int
  firstBegin : Int
  lastEnd : Int
  npart : Int
  haloidBegin : Int
  nhalo : Int
  deriving DecidableEq

/-- The constructor, src/io/gadget_group_io.cpp:292-300. -/
def emptyAssignment : FileAssignment := FileAssignment.mk 0 0 0 (-1) 0 0 0

/-- `std::lower_bound`: position of the first element not less than `x`. A linear search gives the
same position as the binary one on the sorted ranges it is used for.
Part of `assignHaloTasks`, src/io/gadget_group_io.cpp:336-357. -/
def offsetLower (l : List Int) (x : Int) : Nat := (l.takeWhile (fun a => decide (a < x))).length

/-- `std::upper_bound`: position of the first element greater than `x`.
Part of `assignHaloTasks`, src/io/gadget_group_io.cpp:336-357. -/
def offsetUpper (l : List Int) (x : Int) : Nat := (l.takeWhile (fun a => decide (a ≤ x))).length

/-- `HaloOffsets.at(i)`: throws outside the range. Part of `assignHaloTasks`, src/io/gadget_group_io.cpp:336-357. -/
def atChecked (v : List Int) (i : Nat) : Outcome Int :=
  match v[i]? with
  | some a => .ok a
  | none => .abort

/-- `AssignHaloTasks`, src/io/gadget_group_io.cpp:336-357. Returns the new `npart_begin` and the
task. -/
def assignHaloTasks (nworkers : Nat) (npartTot : Int) (haloOffsets fileOffsets : List Int)
    (npartBegin : Int) (task : FileAssignment) : Outcome (Int × FileAssignment) :=
  if npartTot = 0 then .ok (npartBegin, task)
  else if nworkers = 0 then .ub
  else do
    let npartThis := (npartTot - npartBegin).tdiv nworkers
    let npartEnd := npartBegin + npartThis
    let haloidBegin := offsetLower haloOffsets.dropLast npartBegin
    let endhalo := offsetLower haloOffsets.dropLast npartEnd
    let npartEnd ← atChecked haloOffsets endhalo
    let ifileBegin : Int := (offsetUpper fileOffsets npartBegin : Int) - 1
    let ifileEnd : Int := offsetLower fileOffsets npartEnd
    let first ← Outcome.getI fileOffsets ifileBegin
    let last ← Outcome.getI fileOffsets (ifileEnd - 1)
    .ok (npartEnd, FileAssignment.mk ifileBegin ifileEnd (npartBegin - first) (npartEnd - last)
      (npartEnd - npartBegin) haloidBegin ((endhalo : Int) - haloidBegin))

/-- The loop over the ranks, src/io/gadget_group_io.cpp:389-392; `nworkers` counts down. -/
def assignLoop (npartTot : Int) (haloOffsets fileOffsets : List Int) :
    Nat → Int → Outcome (List FileAssignment)
  | 0, _ => .ok []
  | n + 1, b => do
    let (b, t) ← assignHaloTasks (n + 1) npartTot haloOffsets fileOffsets b emptyAssignment
    let ts ← assignLoop npartTot haloOffsets fileOffsets n b
    .ok (t :: ts)

/-- The check of the number of files, src/io/gadget_group_io.cpp:191-195, for every file. -/
def checkCounts {w : Nat} (fileCounts : Nat) : List (GroupFile w) → Outcome Unit
  | [] => .ok ()
  | f :: fs => if fileCounts ≠ f.nfiles then .abort else checkCounts fileCounts fs

/-- The decisions of rank 0 once the numbers are known, src/io/gadget_group_io.cpp:387-393: `sizes` are
the numbers of particles in the files, `lens` the lengths of all groups. -/
def planTasks (P : Nat) (sizes lens : List Nat) : Outcome (List Nat × List FileAssignment) :=
  let fileOffset := compileOffsets sizes
  let haloOffset := compileOffsets lens
  if haloOffset.2 ≠ fileOffset.2 then .abort
  else do
    let tasks ← assignLoop fileOffset.2 ((haloOffset.1 ++ [fileOffset.2]).map Int.ofNat)
      (fileOffset.1.map Int.ofNat) P 0
    .ok (lens, tasks)

/-- The part of `Load` done by rank 0, src/io/gadget_group_io.cpp:366-393: the group lengths of all
files and the tasks of all ranks. -/
def planLoad {w : Nat} (P : Nat) (files : List (GroupFile w)) :
    Outcome (List Nat × List FileAssignment) := do
  let _ ← checkCounts files.length files
  planTasks P (files.map (fun f => f.ids.length)) (files.map GroupFile.len).flatten

/-- `if(Mask) PIDs[i]&=Mask`, src/io/gadget_group_io.cpp:246-250, followed by the conversion to
`HBTInt`. -/
def maskedId {w : Nat} (mask : BitVec w) (id : BitVec w) : Int :=
  (if mask ≠ 0#w then id &&& mask else id).toInt

/-- `Read(iFile, READ_PARTICLES, start_particle, end_particle)`,
src/io/gadget_group_io.cpp:235-266. A negative length makes the vector constructor throw; seeking
before the id block reads other data (`ub` in the model). -/
def readIds {w : Nat} (mask : BitVec w) (f : GroupFile w) (start fin : Int) : Outcome (List Int) :=
  if ¬ fin ≤ f.ids.length then .abort
  else
    let fin : Int := if fin < 0 then f.ids.length else fin
    let nread := fin - start
    if nread < 0 then .abort
    else if start < 0 then .ub
    else .ok (((f.ids.drop start.toNat).take nread.toNat).map (maskedId mask))

/-- The loop over the files of a task, src/io/gadget_group_io.cpp:423-430. A file number outside the
catalogue is a file that cannot be opened. -/
def readTask {w : Nat} (mask : BitVec w) (files : List (GroupFile w)) (t : FileAssignment) :
    Nat → Int → List Int → Outcome (List Int)
  | 0, _, buf => .ok buf
  | n + 1, iFile, buf => do
    let start := if iFile = t.ifileBegin then t.firstBegin else 0
    let fin := if iFile = t.ifileEnd - 1 then t.lastEnd else -1
    if iFile < 0 then .abort
    else match files[iFile.toNat]? with
      | none => .abort
      | some f => do
        let ids ← readIds mask f start fin
        readTask mask files t n (iFile + 1) (buf ++ ids)

/-- The loop populating the haloes, src/io/gadget_group_io.cpp:435-443; reading past the buffer is
undefined. -/
def populate (haloid : Int) : List Nat → List Int → Outcome (List (Int × List Int))
  | [], _ => .ok []
  | n :: ns, p =>
    if n ≤ p.length then do
      let rest ← populate (haloid + 1) ns (p.drop n)
      .ok ((haloid, p.take n) :: rest)
    else .ub

/-- `v.resize(n)`. Part of `receiveLens`, src/io/gadget_group_io.cpp:398-409. -/
def resizeTo (v : List Nat) (n : Int) : Outcome (List Nat) :=
  if n < 0 then .abort else .ok (v.take n.toNat ++ List.replicate (n.toNat - v.length) 0)

/-- What rank `r` finds in `HaloLenBuffer`, src/io/gadget_group_io.cpp:398-409: rank 0 shortens its
own copy, the others receive the range rank 0 sends. -/
def receiveLens (lens : List Nat) (r : Nat) (t : FileAssignment) : Outcome (List Nat) :=
  if r = 0 then resizeTo lens t.nhalo
  else if t.haloidBegin < 0 ∨ t.nhalo < 0 then .ub
  else slice lens t.haloidBegin.toNat t.nhalo.toNat

/-- `Load`, src/io/gadget_group_io.cpp:358-456, on all ranks: for each rank the haloes with their
`HaloId` and the ids of their particles. -/
def loadGroups {w : Nat} (P : Nat) (mask : BitVec w) (files : List (GroupFile w)) :
    Outcome (Fin P → List (Int × List Int)) := do
  let plan ← planLoad P files
  allRanks P (fun r => do
    let t ← Outcome.get plan.2 r.val
    let lens ← receiveLens plan.1 r.val t
    let buf ← readTask mask files t (t.ifileEnd - t.ifileBegin).toNat t.ifileBegin []
    populate t.haloidBegin lens buf)

end HBT.Model
