import Verif.Model.GadgetGroup
import Verif.Model.GadgetSnap
import Verif.Spec.GroupFile
/-!
# Model of src/io/gadget_group_io.cpp: the files of a group catalogue

File names, byte order, and the layout of the files. `GroupDir` is what the program can see of the
directories; the printing of the names (`HaloPath` and the number of the snapshot) is not modelled.
-/
namespace HBT.Model
open HBT.Spec (Place GroupKind GroupDir)

/-- What the constructor of `GroupFileReader_t` finds: the place (`filename_format`, `IsSubFile`),
`FileCounts` and `NeedByteSwap`. Part of `searchPlaces`, src/io/gadget_group_io.cpp:68-136. -/
structure GroupInfo where
  place : Place
  count : Nat
  swap : Bool
  deriving DecidableEq

/-- `GroupFileFormat` is one of version 3, src/io/gadget_group_io.cpp:52, 171. -/
def isGroupV3 (fmt : String) : Bool := fmt = "gadget3_int" ∨ fmt = "gadget3_long"

/-- `GetGroupFileByteOrder`, src/io/gadget_group_io.cpp:32-66, on the content of the file. `Nfiles` is not
initialised before the `fread`; `sizeof(GroupV4Header_t)` (src/io/gadget_group_io.h:9-25) is 88. -/
def groupByteOrder (le : Bool) (fmt : String) (content : List Byte) (fileCounts : Nat) : Outcome Bool := do
  let n : BitVec 32 := if fmt = "gadget4" then 88 else BitVec.ofNat 32 fileCounts
  let ns := swap4 n
  let offset := if fmt = "gadget4" then 0 else if isGroupV3 fmt then 3 * 4 + 8 else 3 * 4
  let (nfiles, _) ← readBlockSize le ⟨content, offset⟩ false
  if nfiles = n.toInt then .ok false
  else if nfiles = ns.toInt then .ok true
  else .abort

/-- The search of `GetFileNameFormat`, src/io/gadget_group_io.cpp:68-136, through the remaining places. For
places with numbered files `count_pattern_files` counts the names. -/
def searchPlaces (le : Bool) (fmt : String) (dir : GroupDir) : List Place → Outcome GroupInfo
  | [] => .abort
  | p :: ps =>
    match dir.file p .tab (p.number 0) with
    | some c => do
      let n := if p.numbered then dir.count p else 1
      let swap ← groupByteOrder le fmt c n
      .ok ⟨p, n, swap⟩
    | none => searchPlaces le fmt dir ps

/-- `GetFileNameFormat`, src/io/gadget_group_io.cpp:68-136. -/
def findGroupFiles (le : Bool) (fmt : String) (dir : GroupDir) : Outcome GroupInfo :=
  searchPlaces le fmt dir [.subGroups, .fofGroups, .fofSnapdir, .subFlat, .fofFlat]

/-- `sprintf(filename, filename_format.c_str(), kind[, iFile])` and `myfopen`,
src/io/gadget_group_io.cpp:173-178, 228-233. With `FileCounts==1` the number is not passed: if the format
asks for one, the call is undefined. -/
def openGroupFile (dir : GroupDir) (info : GroupInfo) (kind : GroupKind) (i : Nat) : Outcome (List Byte) :=
  if info.count ≤ 1 ∧ info.place.numbered then .ub
  else match dir.file info.place kind (info.place.number i) with
    | some c => .ok c
    | none => .abort

/-- The sizes of the members of the head of a `tab` file, src/io/gadget_group_io.cpp:179-199. -/
def tabFormat (v3 sub : Bool) : List (Nat × Nat) :=
  (if v3 then [(4, 1), (4, 1), (4, 1), (8, 1), (4, 1)] else [(4, 1), (4, 1), (4, 1), (4, 1)]) ++
  (if sub then [(4, 1), (4, 1)] else [])

/-- `Ngroups`, `Nids` and `NFiles` among the members. Part of `readTabHead`, src/io/gadget_group_io.cpp:173-204. -/
def decodeTab (le v3 : Bool) : List (List (List Byte)) → Outcome (Int × Int × Int)
  | [g] :: [x] :: [y] :: [z] :: ws =>
    if v3 then
      match ws with
      | [n] :: _ => .ok ((word32 le g).toInt, (word32 le y).toInt, (word32 le n).toInt)
      | _ => .ub
    else .ok ((word32 le g).toInt, (word32 le x).toInt, (word32 le z).toInt)
  | _ => .ub

/-- The head of a `tab` file, src/io/gadget_group_io.cpp:173-204: `Ngroups` and `Nids`, and the file. A file that
ends within the head leaves variables uninitialised (the model does not distinguish those that are not used, `Nsub`
and `TotNsub`); neither does it follow negative counts. -/
def readTabHead (le : Bool) (fmt : String) (dir : GroupDir) (info : GroupInfo) (i : Nat) : Outcome (Nat × Nat × File) := do
  let c ← openGroupFile dir info .tab i
  let (ws, f) ← readMembers le info.swap (tabFormat (isGroupV3 fmt) info.place.sub) ⟨c, 0⟩
  let (ngroups, nids, nfiles) ← decodeTab le (isGroupV3 fmt) ws
  if (info.count : Int) ≠ nfiles then .abort
  else if ngroups < 0 ∨ nids < 0 then .ub
  else .ok (ngroups.toNat, nids.toNat, f)

/-- `Read(iFile, READ_META_DATA)`: the numbers of groups and particles, src/io/gadget_group_io.cpp:205-209. -/
def readGroupMeta (le : Bool) (fmt : String) (dir : GroupDir) (info : GroupInfo) (i : Nat) : Outcome (Nat × Nat) := do
  let (ngroups, nids, _) ← readTabHead le fmt dir info i
  .ok (ngroups, nids)

/-- `myfread` into a vector, followed by a test of `feof`: a short read ends the program.
Part of `readGroupLens`, src/io/gadget_group_io.cpp:211-225. -/
def freadOrExit (le : Bool) (m n : Nat) (f : File) (swap : Bool) : Outcome (List (List Byte) × File) :=
  if (f.read (m * n)).1.length < m * n then .abort else myfread le m n f swap

/-- Group lengths; negative ones are not followed. Part of `readGroupLens`, src/io/gadget_group_io.cpp:211-225. -/
def lengthsOf (le : Bool) : List (List Byte) → Outcome (List Nat)
  | [] => .ok []
  | w :: ws =>
    if (word32 le w).toInt < 0 then .ub
    else do
      let rest ← lengthsOf le ws
      .ok ((word32 le w).toInt.toNat :: rest)

/-- `Read(iFile, READ_LEN_OFFSET)`, src/io/gadget_group_io.cpp:211-225: `Len`. (`Offset` is read and not used: it is
compiled again.) -/
def readGroupLens (le : Bool) (fmt : String) (dir : GroupDir) (info : GroupInfo) (i : Nat) : Outcome (List Nat) := do
  let (ngroups, _, f) ← readTabHead le fmt dir info i
  let (ws, f) ← freadOrExit le 4 ngroups f info.swap
  let (_, _) ← freadOrExit le 4 ngroups f info.swap
  lengthsOf le ws

/-- `BytesToEOF`, src/mymath.h:156-168. -/
def File.bytesToEOF (f : File) : Int := (f.content.length : Int) - f.pos

/-- `Read(iFile, READ_PARTICLES, start_particle, end_particle)`, src/io/gadget_group_io.cpp:228-272, with ids of `w`
bits. `PIDs` holds zeros before it is read. `fseek` and `fsetpos` clear the end-of-file indicator, so `feof` is false
at 258. -/
def readGroupIds (w : Nat) (le : Bool) (fmt : String) (mask : BitVec w) (rankStyle : Bool) (dir : GroupDir) (info : GroupInfo) (i : Nat)
    (start fin : Int) : Outcome (List Int) := do
  let (_, nids, _) ← readTabHead le fmt dir info i
  let c ← openGroupFile dir info .ids i
  let f : File := ⟨c, if isGroupV3 fmt then 4 + 4 + 4 + 8 + 4 + 4 else 4 + 4 + 4 + 4⟩
  if ¬ fin ≤ nids then .abort
  else do
    let fin : Int := if fin < 0 then nids else fin
    let nread := fin - start
    if nread < 0 then .abort
    else do
      let f := f.seekCur ((w / 8 : Nat) * start)
      let (d, f) ← freadSwap le (List.replicate (w / 8 * nread.toNat) 0#8) (w / 8) nread.toNat f info.swap
      let f := f.seekCur ((w / 8 : Nat) * (nids - fin))
      if f.bytesToEOF ≠ 0 then .abort
      else if rankStyle then .abort
      else .ok ((members (w / 8) nread.toNat d).map (fun b => maskedId mask (BitVec.ofNat w (loadNat le b))))

/-- The same read for the files from `i` on, `n` of them. Part of `loadPids`, src/io/gadget_group_io.cpp:358-456. -/
def readEach {α : Type} (read : Nat → Outcome α) : Nat → Nat → Outcome (List α)
  | 0, _ => .ok []
  | n + 1, i => do
    let x ← read i
    let rest ← readEach read n (i + 1)
    .ok (x :: rest)

/-- The loop over the files of a task, src/io/gadget_group_io.cpp:423-430. -/
def readTaskFiles (read : Nat → Int → Int → Outcome (List Int)) (t : FileAssignment) : Nat → Int → List Int → Outcome (List Int)
  | 0, _, buf => .ok buf
  | n + 1, iFile, buf =>
    let start := if iFile = t.ifileBegin then t.firstBegin else 0
    let fin := if iFile = t.ifileEnd - 1 then t.lastEnd else -1
    if iFile < 0 then .abort
    else do
      let ids ← read iFile.toNat start fin
      readTaskFiles read t n (iFile + 1) (buf ++ ids)

/-- `Load`, src/io/gadget_group_io.cpp:358-456, for ids of `w` bits, after the constructor of the reader. -/
def loadPids (w : Nat) (le : Bool) (fmt : String) (mask : BitVec w) (rankStyle : Bool) (P : Nat) (dir : GroupDir) (info : GroupInfo) :
    Outcome (Fin P → List (Int × List Int)) := do
  let counts ← readEach (readGroupMeta le fmt dir info) info.count 0
  let lens ← readEach (readGroupLens le fmt dir info) info.count 0
  let plan ← planTasks P (counts.map Prod.snd) lens.flatten
  allRanks P (fun r => do
    let t ← Outcome.get plan.2 r.val
    let lens ← receiveLens plan.1 r.val t
    let buf ← readTaskFiles (readGroupIds w le fmt mask rankStyle dir info) t (t.ifileEnd - t.ifileBegin).toNat t.ifileBegin []
    populate t.haloidBegin lens buf)

/-- `GadgetGroup::Load` with the dispatch of `Read`, src/io/gadget_group_io.cpp:274-285. `mask` is `GroupParticleIdMask`,
`rankStyle` is `ParticleIdRankStyle`. (There is a first file, so an unknown format is noticed.) -/
def loadGroupFiles (le : Bool) (fmt : String) (mask : BitVec 64) (rankStyle : Bool) (P : Nat) (dir : GroupDir) :
    Outcome (Fin P → List (Int × List Int)) := do
  let info ← findGroupFiles le fmt dir
  if fmt = "gadget2_int" ∨ fmt = "gadget3_int" then loadPids 32 le fmt (mask.setWidth 32) rankStyle P dir info
  else if fmt = "gadget2_long" ∨ fmt = "gadget3_long" then loadPids 64 le fmt mask rankStyle P dir info
  else .abort

end HBT.Model
