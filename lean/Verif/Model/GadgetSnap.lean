import Verif.Model.Bytes
import Verif.Model.MyMath
import Verif.Model.Mpi
import Verif.Spec.GadgetFile
/-!
# Model of `GadgetReader_t` (src/io/gadget_io.cpp, src/io/gadget_io.h)

The files of the snapshot are given as a list of byte sequences in the order of their numbers
(`GetGadgetFileName`, src/io/gadget_io.cpp:67-83, finds the file of a number; a missing one ends
the program). `float` and `double` enter through decoders into the type `K` of reals; conversions
between them are exact in the model.
-/
namespace HBT.Model
open HBT.Spec (SnapParticle)

variable {K : Type} [Field K] [LinearOrder K] [IsStrictOrderedRing K] [FloorRing K]

/-- What the reader depends on: compile-time switches, configuration and the host.
Part of `readGadgetHeader`, src/io/gadget_io.cpp:84-132. -/
structure GadgetEnv (K : Type) where
  /-- byte order of the host -/
  le : Bool
  /-- value of the four bytes of a `float` -/
  real4 : List Byte → K
  /-- value of the eight bytes of a `double` -/
  real8 : List Byte → K
  /-- `sqrt` -/
  sqrt : K → K
  /-- macro `DM_ONLY` -/
  dmOnly : Bool
  /-- macro `HAS_THERMAL_ENERGY` -/
  thermal : Bool
  /-- `sizeof(HBTInt)` -/
  intBytes : Nat
  /-- `HBTConfig.BoxSize` -/
  boxSize : K
  /-- `HBTConfig.PeriodicBoundaryOn` -/
  periodic : Bool
  /-- `HBTConfig.SnapshotHasIdBlock` -/
  hasId : Bool
  /-- `HBTConfig.ParticleIdRankStyle` -/
  idRankStyle : Bool
  /-- `HBTConfig.SnapshotIdUnsigned` -/
  idUnsigned : Bool

/-- `GadgetHeader_t`, src/io/gadget_io.h:7-23, without the filling bytes. -/
structure GadgetHeader (K : Type) where
  npart : Fin 6 → Int
  mass : Fin 6 → K
  scaleFactor : K
  redshift : K
  flagSfr : Int
  flagFeedback : Int
  npartTotal : Fin 6 → Nat
  flagCooling : Int
  numFiles : Int
  boxSize : K
  omegaM0 : K
  omegaLambda0 : K
  hubbleParam : K

/-- Cut a buffer into `n` members of `m` bytes. Buffers of `myfread`, src/io/gadget_io.cpp:62 and src/mymath.h:144-151. -/
def members (m : Nat) : Nat → List Byte → List (List Byte)
  | 0, _ => []
  | n + 1, d => d.take m :: members m n (d.drop m)

/-- `myfread(buf, m, n, fp)` into an uninitialised buffer, src/io/gadget_io.cpp:62 and
src/mymath.h:144-151. A short read leaves members uninitialised. -/
def myfread (le : Bool) (m n : Nat) (f : File) (swap : Bool) : Outcome (List (List Byte) × File) :=
  if (f.read (m * n)).1.length < m * n then .ub
  else do
    let (d, f) ← freadSwap le [] m n f swap
    .ok (members m n d, f)

/-- The four bytes of an `int` or `unsigned` in memory as a number. (All members passed have four bytes.)
Members of the header, src/io/gadget_io.h:7-23. -/
def word32 (le : Bool) : List Byte → BitVec 32
  | [a, b, c, d] => load32 le a b c d
  | _ => 0

/-- A member array of `TypeMax = 6` entries. Arrays of the header, src/io/gadget_io.h:7-23. -/
def six {α : Type} (l : List α) : Outcome (Fin 6 → α) :=
  if h : l.length = 6 then .ok (fun i => l[i.val]'(by omega)) else .ub

/-- Consecutive calls of `myfread`, one for each member of the header: element size and count.
Part of `readGadgetHeader`, src/io/gadget_io.cpp:84-132. -/
def readMembers (le swap : Bool) : List (Nat × Nat) → File → Outcome (List (List (List Byte)) × File)
  | [], f => .ok ([], f)
  | (m, n) :: fmt, f => do
    let (w, f) ← myfread le m n f swap
    let (ws, f) ← readMembers le swap fmt f
    .ok (w :: ws, f)

/-- The members of `GadgetHeader_t` in the order of the calls at src/io/gadget_io.cpp:104-116:
`npart`, `mass`, `ScaleFactor`, `redshift`, `flag_sfr`, `flag_feedback`, `npartTotal`,
`flag_cooling`, `num_files`, `BoxSize`, `OmegaM0`, `OmegaLambda0`, `HubbleParam`. -/
def headerFormat : List (Nat × Nat) :=
  [(4, 6), (8, 6), (8, 1), (8, 1), (4, 1), (4, 1), (4, 6), (4, 1), (4, 1), (8, 1), (8, 1), (8, 1), (8, 1)]

/-- The header from its members. Part of `readGadgetHeader`, src/io/gadget_io.cpp:84-132. -/
def decodeHeader (env : GadgetEnv K) : List (List (List Byte)) → Outcome (GadgetHeader K)
  | [npart, mass, [scaleFactor], [redshift], [flagSfr], [flagFeedback], npartTotal, [flagCooling],
      [numFiles], [boxSize], [omegaM0], [omegaLambda0], [hubbleParam]] => do
    let npart ← six npart
    let mass ← six mass
    let npartTotal ← six npartTotal
    .ok {
      npart := fun t => (word32 env.le (npart t)).toInt
      mass := fun t => env.real8 (mass t)
      scaleFactor := env.real8 scaleFactor
      redshift := env.real8 redshift
      flagSfr := (word32 env.le flagSfr).toInt
      flagFeedback := (word32 env.le flagFeedback).toInt
      npartTotal := fun t => (word32 env.le (npartTotal t)).toNat
      flagCooling := (word32 env.le flagCooling).toInt
      numFiles := (word32 env.le numFiles).toInt
      boxSize := env.real8 boxSize
      omegaM0 := env.real8 omegaM0
      omegaLambda0 := env.real8 omegaLambda0
      hubbleParam := env.real8 hubbleParam }
  | _ => .ub

/-- The decision on byte order from the first marker, src/io/gadget_io.cpp:87-103;
`SNAPSHOT_HEADER_SIZE = 256` (src/io/gadget_io.h:5). -/
def endiannessCheck (dummy : Int) : Outcome Bool :=
  if dummy = 256 then .ok false
  else if dummy = (swap4 256#32).toInt then .ok true
  else .abort

/-- `ReadGadgetFileHeader(fp, header)` on a file just opened, src/io/gadget_io.cpp:84-132. Returns
whether bytes need swapping, the header, and the file after the header record. The branch
`MAJOR_MERGER_PATCH` is left out. -/
def readGadgetHeader (env : GadgetEnv K) (content : List Byte) :
    Outcome (Bool × GadgetHeader K × File) := do
  let (dummy, f) ← readBlockSize env.le ⟨content, 0⟩ false
  let swap ← endiannessCheck dummy
  let (ws, f) ← readMembers env.le swap headerFormat f
  -- fseek(fp,headersize+sizeof(int),SEEK_SET)
  let (dummy2, f) ← readBlockSize env.le { f with pos := 256 + 4 } swap
  if dummy2 ≠ 256 then .abort
  else do
    let h ← decodeHeader env ws
    .ok (swap, h, f)

/-- Particle counts of a header. A negative count makes the later conversion to `size_t` and the
iteration over particles meaningless: undefined. Part of `readGadgetNumber`, src/io/gadget_io.cpp:134-151. -/
def partCounts (h : GadgetHeader K) : Outcome (Fin 6 → Nat) :=
  if ∀ t, 0 ≤ h.npart t then .ok (fun t => (h.npart t).toNat) else .ub

/-- Sum over the six types. Part of `readGadgetNumber`, src/io/gadget_io.cpp:134-151. -/
def sumTypes (np : Fin 6 → Nat) : Nat := (List.ofFn np).sum

/-- `myfopen` of file `i`; a missing file ends the program. Part of `readGadgetNumber`, src/io/gadget_io.cpp:134-151. -/
def openGadget (files : List (List Byte)) (i : Nat) : Outcome (List Byte) :=
  match files[i]? with
  | some c => .ok c
  | none => .abort

/-- `ReadGadgetNumberOfParticles(ifile)`, src/io/gadget_io.cpp:134-151. -/
def readGadgetNumber (env : GadgetEnv K) (files : List (List Byte)) (i : Nat) : Outcome Nat := do
  let c ← openGadget files i
  let (_, h, _) ← readGadgetHeader env c
  let np ← partCounts h
  .ok (if env.dmOnly then np 1 else sumTypes np)

/-- The loop over files of `LoadGadgetHeader`, src/io/gadget_io.cpp:195-203: `n` files from number `i`
on, `np` particles before. Returns `OffsetOfParticleInFiles`. (`NumberOfParticleInFiles` only
serves to reserve memory.) -/
def gadgetOffsets (env : GadgetEnv K) (files : List (List Byte)) : Nat → Nat → Nat → Outcome (List Nat)
  | 0, _, _ => .ok []
  | n + 1, i, np => do
    let k ← readGadgetNumber env files i
    let rest ← gadgetOffsets env files n (i + 1) (np + k)
    .ok (np :: rest)

/-- The members of the reader set from file 0: `Header`, `NeedByteSwap`, `RealTypeSize`,
`IntTypeSize`, `OffsetOfParticleInFiles`. Part of `loadGadgetHeader`, src/io/gadget_io.cpp:153-204. -/
structure GadgetInfo (K : Type) where
  header : GadgetHeader K
  swap : Bool
  realSize : Nat
  intSize : Nat
  offsets : List Nat

/-- The part of `LoadGadgetHeader` about ids, src/io/gadget_io.cpp:183-191. -/
def loadIdSize (env : GadgetEnv K) (num : Nat) (f : File) (swap : Bool) : Outcome Nat :=
  if env.hasId then do
    let (blocksize, _) ← skipFortranBlock env.le f swap
    let intSize := blocksize.tdiv num
    if (intSize = 4 ∨ intSize = 8) ∧ intSize ≤ env.intBytes then .ok intSize.toNat else .abort
  else .ok 0

/-- `LoadGadgetHeader(0)`, src/io/gadget_io.cpp:153-204. Division by zero is undefined. -/
def loadGadgetHeader (env : GadgetEnv K) (files : List (List Byte)) : Outcome (GadgetInfo K) := do
  let c ← openGadget files 0
  let (swap, h, f) ← readGadgetHeader env c
  if h.boxSize ≠ env.boxSize then .abort
  else do
    let np ← partCounts h
    let num := sumTypes np
    let (blocksize, f) ← skipFortranBlock env.le f swap
    if num = 0 then .ub
    else do
      let realSize := (blocksize.tdiv num).tdiv 3
      if realSize = 4 ∨ realSize = 8 then do
        let (blocksize, f) ← skipFortranBlock env.le f swap
        if blocksize ≠ realSize * num * 3 then .abort
        else do
          let intSize ← loadIdSize env num f swap
          let offsets ← gadgetOffsets env files h.numFiles.toNat 0 0
          .ok ⟨h, swap, realSize.toNat, intSize, offsets⟩
      else .abort

/-- The decoder for blocks of reals: `float` if `RealTypeSize==4`, otherwise `double`,
src/io/gadget_io.cpp:336-345. -/
def blockReal (env : GadgetEnv K) (realSize : Nat) : List Byte → K :=
  if realSize = 4 then env.real4 else env.real8

/-- `data_reshape()`, src/mymath.h:254-257: rows of three. -/
def rows3 {α : Type} : List α → List (Fin 3 → α)
  | a :: b :: c :: rest => (fun j => if j = 0 then a else if j = 1 then b else c) :: rows3 rest
  | _ => []

/-- `ReadXYZBlock(dtype, Attr)`, src/io/gadget_io.cpp:257-263. -/
def readXYZ (env : GadgetEnv K) (rs nRead nSkip : Nat) (f : File) (swap : Bool) :
    Outcome (List (Fin 3 → K) × File) := do
  let (d, f) ← fortranRead env.le rs (nRead * 3) (nSkip * 3) f swap
  .ok (rows3 ((members rs (nRead * 3) d).map (blockReal env rs)), f)

/-- Bytes in memory as an unsigned number. Part of `memberId`, src/io/gadget_io.cpp:368-376. -/
def loadNat (le : Bool) (w : List Byte) : Nat :=
  (if le then w else w.reverse).foldr (fun b a => b.toNat + 256 * a) 0

/-- The id stored in a member of the id block: `unsigned`, `int` or `long`, converted to `HBTInt`
(src/io/gadget_io.cpp:368-376, 251-255). -/
def memberId (env : GadgetEnv K) (isz : Nat) (w : List Byte) : Int :=
  let raw : Int := loadNat env.le w
  let v := if isz = 4 ∧ env.idUnsigned then raw else raw.bmod (256 ^ isz)
  v.bmod (256 ^ env.intBytes)

/-- Ids, src/io/gadget_io.cpp:360-383. -/
def readGadgetIds (env : GadgetEnv K) (info : GadgetInfo K) (iFile nRead nSkip : Nat) (f : File) (swap : Bool) :
    Outcome (List Int × File) :=
  if env.hasId then
    if env.idRankStyle then .abort
    else do
      let (d, f) ← fortranRead env.le info.intSize nRead nSkip f swap
      .ok ((members info.intSize nRead d).map (memberId env info.intSize), f)
  else do
    let first ← Outcome.get info.offsets iFile
    .ok ((List.range nRead).map (fun i => ((first + i : Nat) : Int)), f)

/-- `MassDataPresent(i)`, src/io/gadget_io.cpp:385. -/
def massDataPresent (h : GadgetHeader K) (t : Fin 6) : Bool :=
  decide (h.mass t = 0) && decide (h.npartTotal t ≠ 0)

/-- Distribution of masses to the particles of the types in `ts`, src/io/gadget_io.cpp:278-291;
`off` is `offset_mass` of the next type with mass data (lines 268-275). The targets
`NewParticles+offset[itype]` follow one another, so the masses are listed type after type. -/
def spreadMass (h : GadgetHeader K) (np : Fin 6 → Nat) (block : List K) :
    List (Fin 6) → Nat → Outcome (List K)
  | [], _ => .ok []
  | t :: ts, off =>
    if massDataPresent h t then do
      let ms ← slice block off (np t)
      let rest ← spreadMass h np block ts (off + np t)
      .ok (ms ++ rest)
    else do
      let rest ← spreadMass h np block ts off
      .ok (List.replicate (np t) (h.mass t) ++ rest)

/-- `ReadMassBlock(dtype)`, src/io/gadget_io.cpp:267-309, both variants. -/
def readMass (env : GadgetEnv K) (rs : Nat) (h : GadgetHeader K) (np : Fin 6 → Nat) (nRead nSkip : Nat)
    (f : File) (swap : Bool) : Outcome (List K × File) :=
  if env.dmOnly then
    if massDataPresent h 1 then do
      let offsetMass := if massDataPresent h 0 then np 0 else 0
      let (d, f) ← fortranRead env.le rs nRead offsetMass f swap
      .ok ((members rs nRead d).map (blockReal env rs), f)
    else .ok (List.replicate nRead (h.mass 1), f)
  else do
    let nReadMass := sumTypes (fun t => if massDataPresent h t then np t else 0)
    let (block, f) ← if nReadMass ≠ 0 then do
        let (d, f) ← fortranRead env.le rs nReadMass nSkip f swap
        .ok ((members rs nReadMass d).map (blockReal env rs), f)
      else .ok ([], f)
    let ms ← spreadMass h np block (List.finRange 6) 0
    .ok (ms, f)

/-- `ReadEnergyBlock(dtype)`, src/io/gadget_io.cpp:311-315 and 392-398: internal energies of the
first `npart[0]` particles; the others are not set. -/
def readEnergy (env : GadgetEnv K) (rs : Nat) (np : Fin 6 → Nat) (nRead : Nat) (f : File) (swap : Bool) :
    Outcome (List (Option K) × File) :=
  if env.dmOnly = false ∧ env.thermal = true then do
    let (d, f) ← fortranRead env.le rs (np 0) 0 f swap
    .ok ((members rs (np 0) d).map (fun w => some (blockReal env rs w)) ++
      List.replicate (nRead - np 0) none, f)
  else .ok (List.replicate nRead none, f)

/-- Types, src/io/gadget_io.cpp:400-405; particles have no member `Type` under `DM_ONLY`. -/
def gadgetTypes (env : GadgetEnv K) (np : Fin 6 → Nat) (nRead : Nat) : List (Option Nat) :=
  if env.dmOnly then List.replicate nRead none
  else (List.finRange 6).flatMap fun t => List.replicate (np t) (some t.val)

/-- The particles `NewParticles[0..n_read)` from their members. Part of `readGadgetFile`, src/io/gadget_io.cpp:317-415. -/
def gadgetAssemble : List (Fin 3 → K) → List (Fin 3 → K) → List Int → List K → List (Option Nat) →
    List (Option K) → List (SnapParticle K)
  | x :: xs, v :: vs, i :: is, m :: ms, t :: ts, e :: es =>
    ⟨x, v, i, m, t, e⟩ :: gadgetAssemble xs vs is ms ts es
  | _, _, _, _, _, _ => []

/-- `ReadGadgetFile(iFile)`, src/io/gadget_io.cpp:317-415: the particles it appends. The final test of
`feof` (408-412) cannot succeed here, because a short read is already undefined behaviour. -/
def readGadgetFile (env : GadgetEnv K) (info : GadgetInfo K) (files : List (List Byte)) (iFile : Nat) :
    Outcome (List (SnapParticle K)) := do
  let c ← openGadget files iFile
  let (_, h, f) ← readGadgetHeader env c
  let np ← partCounts h
  let nRead := if env.dmOnly then np 1 else sumTypes np
  let nSkip := if env.dmOnly then np 0 else 0
  let (pos, f) ← readXYZ env info.realSize nRead nSkip f info.swap
  let (vel, f) ← readXYZ env info.realSize nRead nSkip f info.swap
  let pos := if env.periodic then pos.map (fun (x : Fin 3 → K) (j : Fin 3) => positionModulus (x j) env.boxSize) else pos
  let vel := vel.map (fun (v : Fin 3 → K) (j : Fin 3) => v j * env.sqrt info.header.scaleFactor)
  let (ids, f) ← readGadgetIds env info iFile nRead nSkip f info.swap
  let (mass, f) ← readMass env info.realSize h np nRead nSkip f info.swap
  let (energy, _) ← readEnergy env info.realSize np nRead f info.swap
  .ok (gadgetAssemble pos vel ids mass (gadgetTypes env np nRead) energy)

/-- The loop over the files of a process, src/io/gadget_io.cpp:243-244: `n` files from number `i` on. -/
def readGadgetFiles (env : GadgetEnv K) (info : GadgetInfo K) (files : List (List Byte)) :
    Nat → Nat → Outcome (List (SnapParticle K))
  | 0, _ => .ok []
  | n + 1, i => do
    let ps ← readGadgetFile env info files i
    let rest ← readGadgetFiles env info files n (i + 1)
    .ok (ps ++ rest)

/-- `Load(world)`, src/io/gadget_io.cpp:206-249, on `P` processes: what process 0 found is broadcast;
each process sets the cosmology `(ScaleFactor, OmegaM0, OmegaLambda0)` and reads its files. The
throttling of the reads (234-246) is `Model/Throttle.lean`. The MPI type of the header covers only
one entry of `npartTotal`; the broadcast header's `npartTotal` is not used after. -/
def loadGadget (env : GadgetEnv K) (P : Nat) (files : List (List Byte)) :
    Outcome (Fin P → (K × K × K) × List (SnapParticle K)) := do
  let info ← loadGadgetHeader env files
  allRanks P fun r => do
    let (b, e) ← assignTasks r P info.header.numFiles.toNat
    let ps ← readGadgetFiles env info files (e - b) b
    .ok ((info.header.scaleFactor, info.header.omegaM0, info.header.omegaLambda0), ps)

end HBT.Model
