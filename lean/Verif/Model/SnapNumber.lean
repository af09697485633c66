import Verif.Model.Config
/-!
# Model of snapshot numbers and file names

src/snapshot_number.h, src/io/subhalo_io.cpp (catalogue names), src/io/gadget_io.cpp and src/io/apostle_io.cpp
(snapshot names). The buffers of `sprintf` (1024 characters) are taken to suffice.
-/
namespace HBT.Model
open HBT
variable {R : Type}

/-- `SnapshotNumber_t`, src/snapshot_number.h:14-19. -/
structure SnapNumber where
  index : Int
  id : Int
  deriving DecidableEq, Repr

/-- `SetSnapshotIndex`, src/snapshot_number.h:56-65. -/
def setSnapshotIndex (c : Params R) (i : Int) : Outcome SnapNumber := do
  Outcome.assert (decide (c.minSnapshotIndex ≤ i) && decide (i ≤ c.maxSnapshotIndex))
  if c.snapshotIdList.isEmpty then pure ⟨i, i⟩
  else do
    let id ← Outcome.getI c.snapshotIdList i
    pure ⟨i, id⟩

/-- `setw(3)<<setfill('0')<<n`: zeros in front, also of a minus sign. Part of `formatSnapshotId`, src/snapshot_number.h:52-55. -/
def padded (n : Int) : List Char := List.replicate (3 - (printInt n).length) '0' ++ printInt n

/-- `FormatSnapshotId`, src/snapshot_number.h:52-55: what is appended to the stream. -/
def formatSnapshotId (s : SnapNumber) : List Char := padded s.id

/-- `SubhaloSnapshot_t::GetSubDir`, src/io/subhalo_io.cpp:106-111. -/
def subDir (c : Params R) (s : SnapNumber) : List Char := c.subhaloPath ++ '/' :: padded s.index

/-- `SubhaloSnapshot_t::GetSubFileName`, src/io/subhalo_io.cpp:112-117. -/
def subFileName (c : Params R) (s : SnapNumber) (iFile : Int) (ftype : List Char) : List Char :=
  subDir c s ++ '/' :: (ftype ++ "Snap_".toList) ++ padded s.index ++ '.' :: printInt iFile ++ ".hdf5".toList

/-- `printf("%03d")`: zeros after the sign. Part of `gadgetFileName`, src/io/gadget_io.cpp:67-83. -/
def printf03 (n : Int) : List Char :=
  if n < 0 then '-' :: (List.replicate (2 - (Nat.toDigits 10 n.natAbs).length) '0' ++ Nat.toDigits 10 n.natAbs)
  else List.replicate (3 - (Nat.toDigits 10 n.natAbs).length) '0' ++ Nat.toDigits 10 n.natAbs

/-- `GadgetReader_t::GetGadgetFileName`, src/io/gadget_io.cpp:67-83. `there` tells which files exist. -/
def gadgetFileName (c : Params R) (there : List Char → Bool) (id ifile : Int) : Outcome (List Char) :=
  let buf := c.snapshotPath ++ '/' :: "snapdir_".toList ++ printf03 id ++ '/' :: c.snapshotFileBase ++ '_' :: printf03 id ++
    '.' :: printInt ifile
  let buf := if ifile = 0 then
      if !there buf then c.snapshotPath ++ '/' :: c.snapshotFileBase ++ '_' :: printf03 id else buf
    else buf
  let buf := if !there buf then c.snapshotPath ++ '/' :: c.snapshotFileBase ++ '_' :: printf03 id ++ '.' :: printInt ifile else buf
  let buf := if !there buf then c.snapshotPath ++ '/' :: printInt id ++ '/' :: c.snapshotFileBase ++ '.' :: printInt ifile else buf
  if !there buf then .abort else .ok buf

/-- `ApostleReader_t::SetSnapshot`, src/io/apostle_io.cpp:52-62: the name of the snapshot. -/
def apostleName (c : Params R) (id : Int) : Outcome (List Char) :=
  if c.snapshotNameList.isEmpty then .ok ("snapshot_".toList ++ padded id) else Outcome.getI c.snapshotNameList id

/-- `ApostleReader_t::GetFileName`, src/io/apostle_io.cpp:64-71; `erase(4,4)` throws if the name is shorter than 4. -/
def apostleFileName (c : Params R) (name : List Char) (ifile : Int) : Outcome (List Char) :=
  if name.length < 4 then .abort
  else .ok (c.snapshotPath ++ '/' :: name ++ '/' :: (name.take 4 ++ name.drop 8) ++ '.' :: printInt ifile ++ ".hdf5".toList)

end HBT.Model
