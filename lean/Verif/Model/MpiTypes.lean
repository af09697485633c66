import Verif.Spec.Layout
import Verif.Model.Outcome
/-!
# Model of the data types for messages and for the table of subhaloes

The structures that are sent between processes, the MPI types that are built for them, and the HDF5 type of a row of the table of
subhaloes. Sizes and alignments are those of 64-bit Unix systems (`long` and pointers have eight bytes). Base classes come first.
-/
namespace HBT.Model
open HBT.Spec (Elem Member Mem offsets structSize writeBytes)

/-- The macros that change structures: `HBT_INT8`, `HBT_REAL8`, `DM_ONLY`, `HAS_THERMAL_ENERGY` (undefined by src/datatypes.h:10-13 with
`DM_ONLY`), `HAS_GSL`, `SAVE_BINDING_ENERGY`. -/
structure Flags where
  int8 : Bool
  real8 : Bool
  dmOnly : Bool
  thermal : Bool
  gsl : Bool
  energies : Bool
  deriving DecidableEq

/-- `HBTInt` and `MPI_HBT_INT`, src/datatypes.h:49-57; `H5T_HBTInt`, src/hdf_wrapper.h:14-18. -/
def Flags.int (fl : Flags) : Elem := if fl.int8 then .int 8 else .int 4

/-- `HBTReal` and `MPI_HBT_REAL`, src/datatypes.h:40-46; `H5T_HBTReal`, src/hdf_wrapper.h:9-13. -/
def Flags.real (fl : Flags) : Elem := if fl.real8 then .real 8 else .real 4

/-- `TypeMax`, src/datatypes.h:179-188. -/
def typeMax : Nat := 6

/-- `RegisterAttr(x, type, count)` and `InsertMember(x, type)`: the name of the member, the type of an element, and the number of
elements. (`x[0]` is where `x` is.) Part of `particleAttrs`, src/snapshot.cpp:150-162. -/
abbrev Attr := String × Elem × Nat

/-- The calls of `RegisterAttr`: attribute number `i` is written to arrays with `max` elements. A name that is not a member would not
compile. The value is the list of blocks passed to `MPI_Type_create_struct`. Part of `particleType`, src/snapshot.cpp:137-169. -/
def registerAttrs (max : Nat) (ms : List Member) : Nat → List Attr → Outcome (List (Nat × Nat))
  | _, [] => .ok []
  | i, a :: as =>
    match (offsets ms).find? (fun m => m.1.name = a.1) with
    | none => .ub
    | some m =>
      if max ≤ i then .ub
      else do
        let rest ← registerAttrs max ms (i + 1) as
        .ok ((m.2, a.2.1.size * a.2.2) :: rest)

/-- `Particle_t`, src/snapshot.h:52-62. -/
def particleMembers (fl : Flags) : List Member :=
  [⟨"Id", fl.int, 1⟩, ⟨"ComovingPosition", fl.real, 3⟩, ⟨"PhysicalVelocity", fl.real, 3⟩, ⟨"Mass", fl.real, 1⟩] ++
  (if fl.dmOnly then [] else (if fl.thermal then [⟨"InternalEnergy", fl.real, 1⟩] else []) ++ [⟨"Type", .int 4, 1⟩])

/-- `Particle_t::create_MPI_type`, src/snapshot.cpp:150-162. -/
def particleAttrs (fl : Flags) : List Attr :=
  [("Id", fl.int, 1), ("ComovingPosition", fl.real, 3), ("PhysicalVelocity", fl.real, 3), ("Mass", fl.real, 1)] ++
  (if fl.dmOnly then [] else (if fl.thermal then [("InternalEnergy", fl.real, 1)] else []) ++ [("Type", .int 4, 1)])

/-- `Halo_t`, src/halo.h:18-23. -/
def haloMembers (fl : Flags) : List Member :=
  [⟨"Particles", .vector, 1⟩, ⟨"HaloId", fl.int, 1⟩, ⟨"ComovingAveragePosition", fl.real, 3⟩, ⟨"PhysicalAverageVelocity", fl.real, 3⟩,
    ⟨"Mass", fl.real, 1⟩]

/-- `create_MPI_Halo_Id_type`, src/halo.cpp:32-38. -/
def haloAttrs (fl : Flags) : List Attr :=
  [("HaloId", fl.int, 1), ("ComovingAveragePosition", fl.real, 3), ("PhysicalAverageVelocity", fl.real, 3), ("Mass", fl.real, 1)]

/-- `Subhalo_t`, src/subhalo.h:29-90. -/
def subhaloMembers (fl : Flags) : List Member :=
  [⟨"TrackId", fl.int, 1⟩, ⟨"Nbound", fl.int, 1⟩, ⟨"Mbound", .real 4, 1⟩] ++
  (if fl.dmOnly then [] else [⟨"NboundType", fl.int, typeMax⟩, ⟨"MboundType", .real 4, typeMax⟩]) ++
  [⟨"HostHaloId", fl.int, 1⟩, ⟨"Rank", fl.int, 1⟩, ⟨"Depth", .int 4, 1⟩, ⟨"LastMaxMass", .real 4, 1⟩, ⟨"SnapshotIndexOfLastMaxMass", .int 4, 1⟩,
    ⟨"SnapshotIndexOfLastIsolation", .int 4, 1⟩, ⟨"SnapshotIndexOfBirth", .int 4, 1⟩, ⟨"SnapshotIndexOfDeath", .int 4, 1⟩,
    ⟨"SnapshotIndexOfSink", .int 4, 1⟩, ⟨"RmaxComoving", .real 4, 1⟩, ⟨"VmaxPhysical", .real 4, 1⟩, ⟨"LastMaxVmaxPhysical", .real 4, 1⟩,
    ⟨"SnapshotIndexOfLastMaxVmax", .int 4, 1⟩, ⟨"R2SigmaComoving", .real 4, 1⟩, ⟨"RHalfComoving", .real 4, 1⟩, ⟨"BoundR200CritComoving", .real 4, 1⟩,
    ⟨"BoundM200Crit", .real 4, 1⟩, ⟨"SpecificSelfPotentialEnergy", .real 4, 1⟩, ⟨"SpecificSelfKineticEnergy", .real 4, 1⟩,
    ⟨"SpecificAngularMomentum", .real 4, 3⟩] ++
  (if fl.gsl then [⟨"InertialEigenVector", .real 4, 9⟩, ⟨"InertialEigenVectorWeighted", .real 4, 9⟩] else []) ++
  [⟨"InertialTensor", .real 4, 6⟩, ⟨"InertialTensorWeighted", .real 4, 6⟩, ⟨"ComovingAveragePosition", fl.real, 3⟩,
    ⟨"PhysicalAverageVelocity", fl.real, 3⟩, ⟨"ComovingMostBoundPosition", fl.real, 3⟩, ⟨"PhysicalMostBoundVelocity", fl.real, 3⟩,
    ⟨"MostBoundParticleId", fl.int, 1⟩, ⟨"SinkTrackId", fl.int, 1⟩, ⟨"Particles", .vector, 1⟩] ++
  (if fl.energies then [⟨"Energies", .vector, 1⟩] else []) ++ [⟨"NestedSubhalos", .vector, 1⟩]

/-- `SubhaloSnapshot_t::BuildMPIDataType`, src/subhalo.cpp:128-172, up to the assertion. -/
def subhaloAttrs (fl : Flags) : List Attr :=
  [("TrackId", fl.int, 1), ("Nbound", fl.int, 1), ("Mbound", .real 4, 1)] ++
  (if fl.dmOnly then [] else [("NboundType", fl.int, typeMax), ("MboundType", fl.int, typeMax)]) ++
  [("HostHaloId", fl.int, 1), ("Rank", fl.int, 1), ("Depth", .int 4, 1), ("LastMaxMass", .real 4, 1), ("SnapshotIndexOfLastMaxMass", .int 4, 1),
    ("SnapshotIndexOfLastIsolation", .int 4, 1), ("SnapshotIndexOfBirth", .int 4, 1), ("SnapshotIndexOfDeath", .int 4, 1), ("SnapshotIndexOfSink", .int 4, 1),
    ("RmaxComoving", .real 4, 1), ("VmaxPhysical", .real 4, 1), ("LastMaxVmaxPhysical", .real 4, 1), ("SnapshotIndexOfLastMaxVmax", .int 4, 1),
    ("R2SigmaComoving", .real 4, 1), ("RHalfComoving", .real 4, 1), ("BoundR200CritComoving", .real 4, 1), ("BoundM200Crit", .real 4, 1),
    ("SpecificSelfPotentialEnergy", .real 4, 1), ("SpecificSelfKineticEnergy", .real 4, 1), ("SpecificAngularMomentum", .real 4, 3)] ++
  (if fl.gsl then [("InertialEigenVector", .real 4, 9), ("InertialEigenVectorWeighted", .real 4, 9)] else []) ++
  [("InertialTensor", .real 4, 6), ("InertialTensorWeighted", .real 4, 6), ("ComovingAveragePosition", fl.real, 3), ("PhysicalAverageVelocity", fl.real, 3),
    ("ComovingMostBoundPosition", fl.real, 3), ("PhysicalMostBoundVelocity", fl.real, 3)]

/-- src/subhalo.cpp:174-175. -/
def subhaloAttrs2 (fl : Flags) : List Attr := [("MostBoundParticleId", fl.int, 1), ("SinkTrackId", fl.int, 1)]

/-- The row type of the table of subhaloes: `BuildHDFDataType`, src/io/subhalo_io.cpp:12-80. A member of a compound type is a name, an
offset (`HOFFSET`) and a type, an element or an array. -/
def tableAttrs (fl : Flags) : List Attr :=
  [("TrackId", fl.int, 1), ("Nbound", fl.int, 1), ("Mbound", .real 4, 1)] ++
  (if fl.dmOnly then [] else [("NboundType", fl.int, typeMax), ("MboundType", .real 4, typeMax)]) ++
  [("HostHaloId", fl.int, 1), ("Rank", fl.int, 1), ("Depth", .int 4, 1), ("LastMaxMass", .real 4, 1), ("SnapshotIndexOfLastMaxMass", .int 4, 1),
    ("SnapshotIndexOfLastIsolation", .int 4, 1), ("SnapshotIndexOfBirth", .int 4, 1), ("SnapshotIndexOfDeath", .int 4, 1), ("SnapshotIndexOfSink", .int 4, 1),
    ("RmaxComoving", .real 4, 1), ("VmaxPhysical", .real 4, 1), ("LastMaxVmaxPhysical", .real 4, 1), ("SnapshotIndexOfLastMaxVmax", .int 4, 1),
    ("R2SigmaComoving", .real 4, 1), ("RHalfComoving", .real 4, 1), ("BoundR200CritComoving", .real 4, 1), ("BoundM200Crit", .real 4, 1),
    ("SpecificSelfPotentialEnergy", .real 4, 1), ("SpecificSelfKineticEnergy", .real 4, 1), ("SpecificAngularMomentum", .real 4, 3)] ++
  (if fl.gsl then [("InertialEigenVector", .real 4, 9), ("InertialEigenVectorWeighted", .real 4, 9)] else []) ++
  [("InertialTensor", .real 4, 6), ("InertialTensorWeighted", .real 4, 6), ("ComovingAveragePosition", fl.real, 3), ("PhysicalAverageVelocity", fl.real, 3),
    ("ComovingMostBoundPosition", fl.real, 3), ("PhysicalMostBoundVelocity", fl.real, 3), ("MostBoundParticleId", fl.int, 1),
    ("SinkTrackId", fl.int, 1)]

/-- `GadgetHeader_t`, src/io/gadget_io.h:7-23. -/
def gadgetHeaderMembers : List Member :=
  [⟨"npart", .int 4, typeMax⟩, ⟨"mass", .real 8, typeMax⟩, ⟨"ScaleFactor", .real 8, 1⟩, ⟨"redshift", .real 8, 1⟩, ⟨"flag_sfr", .int 4, 1⟩, ⟨"flag_feedback", .int 4, 1⟩,
    ⟨"npartTotal", .unsigned 4, typeMax⟩, ⟨"flag_cooling", .int 4, 1⟩, ⟨"num_files", .int 4, 1⟩, ⟨"BoxSize", .real 8, 1⟩, ⟨"OmegaM0", .real 8, 1⟩,
    ⟨"OmegaLambda0", .real 8, 1⟩, ⟨"HubbleParam", .real 8, 1⟩, ⟨"fill", .char, (256 - typeMax * 4 - typeMax * 8 - 2 * 8 - 2 * 4 - typeMax * 4 - 2 * 4 - 4 * 8)⟩]

/-- `GadgetHeader_t::create_MPI_type`, src/io/gadget_io.cpp:31-44. -/
def gadgetHeaderAttrs : List Attr :=
  [("npart", .int 4, typeMax), ("mass", .real 8, typeMax), ("ScaleFactor", .real 8, 1), ("redshift", .real 8, 1), ("flag_sfr", .int 4, 1), ("flag_feedback", .int 4, 1),
    ("npartTotal", .unsigned 4, 1), ("flag_cooling", .int 4, 1), ("num_files", .int 4, 1), ("BoxSize", .real 8, 1), ("OmegaM0", .real 8, 1), ("OmegaLambda0", .real 8, 1),
    ("HubbleParam", .real 8, 1)]

/-- `ApostleHeader_t`, src/io/apostle_io.h:16-26. -/
def apostleHeaderMembers (fl : Flags) : List Member :=
  [⟨"NumberOfFiles", .int 4, 1⟩, ⟨"BoxSize", .real 8, 1⟩, ⟨"ScaleFactor", .real 8, 1⟩, ⟨"OmegaM0", .real 8, 1⟩, ⟨"OmegaLambda0", .real 8, 1⟩, ⟨"mass", .real 8, typeMax⟩,
    ⟨"npart", .int 4, typeMax⟩, ⟨"npartTotal", fl.int, typeMax⟩]

/-- `create_ApostleHeader_MPI_type`, src/io/apostle_io.cpp:32-42. -/
def apostleHeaderAttrs (fl : Flags) : List Attr :=
  [("NumberOfFiles", .int 4, 1), ("BoxSize", .real 8, 1), ("ScaleFactor", .real 8, 1), ("BoxSize", .real 8, 1), ("OmegaM0", .real 8, 1), ("OmegaLambda0", .real 8, 1),
    ("mass", .real 8, typeMax), ("npart", .int 4, typeMax), ("npartTotal", fl.int, typeMax)]

/-- `HaloInfo_t`, src/io/apostle_io.cpp:510-516. -/
def haloInfoMembers (fl : Flags) : List Member := [⟨"id", fl.int, 1⟩, ⟨"m", fl.real, 1⟩, ⟨"x", fl.real, 3⟩, ⟨"order", .int 4, 1⟩]

/-- `create_MPI_HaloInfo_t`, src/io/apostle_io.cpp:529-534. -/
def haloInfoAttrs (fl : Flags) : List Attr := [("id", fl.int, 1), ("m", fl.real, 1), ("x", fl.real, 3), ("order", .int 4, 1)]

/-- `FileAssignment_t`, src/io/gadget_group_io.cpp:287-291. -/
def assignmentMembers (fl : Flags) : List Member :=
  [⟨"ifile_begin", .int 4, 1⟩, ⟨"ifile_end", .int 4, 1⟩, ⟨"firstfile_begin_part", fl.int, 1⟩, ⟨"lastfile_end_part", fl.int, 1⟩, ⟨"npart", fl.int, 1⟩,
    ⟨"haloid_begin", fl.int, 1⟩, ⟨"nhalo", fl.int, 1⟩]

/-- `FileAssignment_t::create_MPI_type`, src/io/gadget_group_io.cpp:315-323. -/
def assignmentAttrs (fl : Flags) : List Attr :=
  [("ifile_begin", .int 4, 1), ("ifile_end", .int 4, 1), ("firstfile_begin_part", fl.int, 1), ("lastfile_end_part", fl.int, 1), ("npart", fl.int, 1),
    ("haloid_begin", fl.int, 1), ("nhalo", fl.int, 1)]

/-- `IdRank_t`, src/datatypes.h:97-105. -/
def idRankMembers (fl : Flags) : List Member := [⟨"Id", fl.int, 1⟩, ⟨"Rank", .int 4, 1⟩]

/-- `MPI_HBTRankPair`, src/datatypes.h:106-110: `MPI_LONG_INT` is the structure of a `long` and an `int`, `MPI_2INT` that of two `int`. -/
def rankPair (fl : Flags) : List Member := if fl.int8 then [⟨"", .int 8, 1⟩, ⟨"", .int 4, 1⟩] else [⟨"", .int 4, 1⟩, ⟨"", .int 4, 1⟩]

/-- `create_MPI_type` of `Particle_t`, src/snapshot.cpp:137-169. -/
def particleType (fl : Flags) : Outcome (List (Nat × Nat)) := do
  let bs ← registerAttrs 10 (particleMembers fl) 0 (particleAttrs fl)
  Outcome.assert (bs.length ≤ 10)
  .ok bs

/-- `create_MPI_Halo_Id_type`, src/halo.cpp:19-46. -/
def haloType (fl : Flags) : Outcome (List (Nat × Nat)) := do
  let bs ← registerAttrs 4 (haloMembers fl) 0 (haloAttrs fl)
  Outcome.assert (bs.length = 4)
  .ok bs

/-- `BuildMPIDataType`, src/subhalo.cpp:114-182. -/
def subhaloType (fl : Flags) : Outcome (List (Nat × Nat)) := do
  let bs ← registerAttrs 50 (subhaloMembers fl) 0 (subhaloAttrs fl)
  let y ← Outcome.getI bs ((bs.length : Int) - 1)
  let x ← Outcome.getI bs ((bs.length : Int) - 2)
  Outcome.assert ((y.1 : Int) - x.1 = fl.real.size * 3)
  let bs2 ← registerAttrs 50 (subhaloMembers fl) bs.length (subhaloAttrs2 fl)
  Outcome.assert ((bs ++ bs2).length ≤ 50)
  .ok (bs ++ bs2)

/-- `create_MPI_type` of `GadgetHeader_t`, src/io/gadget_io.cpp:17-52. -/
def gadgetHeaderType : Outcome (List (Nat × Nat)) := do
  let bs ← registerAttrs 13 gadgetHeaderMembers 0 gadgetHeaderAttrs
  Outcome.assert (bs.length = 13)
  .ok bs

/-- `create_ApostleHeader_MPI_type`, src/io/apostle_io.cpp:19-50. -/
def apostleHeaderType (fl : Flags) : Outcome (List (Nat × Nat)) := do
  let bs ← registerAttrs 13 (apostleHeaderMembers fl) 0 (apostleHeaderAttrs fl)
  Outcome.assert (bs.length ≤ 13)
  .ok bs

/-- `create_MPI_HaloInfo_t`, src/io/apostle_io.cpp:517-542. -/
def haloInfoType (fl : Flags) : Outcome (List (Nat × Nat)) := do
  let bs ← registerAttrs 13 (haloInfoMembers fl) 0 (haloInfoAttrs fl)
  Outcome.assert (bs.length ≤ 13)
  .ok bs

/-- `create_MPI_type` of `FileAssignment_t`, src/io/gadget_group_io.cpp:302-331. -/
def assignmentType (fl : Flags) : Outcome (List (Nat × Nat)) := do
  let bs ← registerAttrs 7 (assignmentMembers fl) 0 (assignmentAttrs fl)
  Outcome.assert (bs.length = 7)
  .ok bs

/-- The table of particles: src/io/subhalo_io.cpp:322-335. -/
def particleTableAttrs (fl : Flags) : List Attr :=
  [("ComovingPosition", fl.real, 3), ("PhysicalVelocity", fl.real, 3), ("Mass", fl.real, 1)] ++
  (if fl.dmOnly then [] else (if fl.thermal then [("InternalEnergy", fl.real, 1)] else []) ++ [("Type", .int 4, 1)])

/-- A column of a compound type: name, element type, number of elements, and offset in memory.
Columns are made by src/io/subhalo_io.cpp:18-79. -/
structure Column where
  attr : Attr
  offset : Nat
  deriving DecidableEq

/-- The number of bytes of a value. Columns are made by src/io/subhalo_io.cpp:18-79. -/
def Column.bytes (c : Column) : Nat := c.attr.2.1.size * c.attr.2.2

/-- `H5Tinsert` into a type of `size` bytes. It fails, and nobody looks, when the name is taken or the place is not free.
The calls are src/io/subhalo_io.cpp:18-79. -/
def insertColumn (size : Nat) (cols : List Column) (c : Column) : List Column :=
  if cols.any (fun d => d.attr.1 = c.attr.1) ∨ cols.any (fun d => d.offset < c.offset + c.bytes ∧ c.offset < d.offset + d.bytes) ∨
    size < c.offset + c.bytes then cols
  else cols ++ [c]

/-- The calls of `InsertMember`. src/io/subhalo_io.cpp:18-79. -/
def insertAttrs (ms : List Member) : List Attr → List Column → Outcome (List Column)
  | [], cols => .ok cols
  | a :: as, cols =>
    match (offsets ms).find? (fun m => m.1.name = a.1) with
    | none => .ub
    | some m => insertAttrs ms as (insertColumn (structSize ms) cols ⟨a, m.2⟩)

/-- A value in a file: the name and type of its column, and its bytes. (`H5Tpack`, src/io/subhalo_io.cpp:82, removes the space between
the values of a row.) -/
abbrev Cell := Attr × List Byte

/-- `H5Dwrite` of row `k`: src/io/subhalo_io.cpp:399 by `writeHDFmatrix`. The columns in the file have the types of those in memory. -/
def writeRow (size : Nat) (cols : List Column) (mem : Mem) (k : Nat) : List Cell :=
  cols.map (fun c => (c.attr, (List.range c.bytes).map (fun j => mem (k * size + c.offset + j))))

/-- `H5Dread` of row `k`, src/io/subhalo_io.cpp:198: columns are looked up by name, and one that is not in the file leaves the memory as it
is. Conversions between types are not modelled. -/
def readRow (size : Nat) (row : List Cell) (k : Nat) : List Column → Mem → Outcome Mem
  | [], mem => .ok mem
  | c :: cs, mem =>
    match row.find? (fun x => x.1.1 = c.attr.1) with
    | none => readRow size row k cs mem
    | some x =>
      if x.1 = c.attr then readRow size row k cs (writeBytes mem (k * size + c.offset) x.2)
      else .ub

/-- The rows of a table from number `k` on. `ReadDataset` of the table, src/io/subhalo_io.cpp:198. -/
def readRows (size : Nat) (cols : List Column) : Nat → List (List Cell) → Mem → Outcome Mem
  | _, [], mem => .ok mem
  | k, row :: rows, mem => do
    let mem ← readRow size row k cols mem
    readRows size cols (k + 1) rows mem

/-- The rows of `n` structures. `writeHDFmatrix` of the table, src/io/subhalo_io.cpp:399. -/
def writeRows (size : Nat) (cols : List Column) (n : Nat) (mem : Mem) : List (List Cell) :=
  (List.range n).map (writeRow size cols mem)

end HBT.Model
