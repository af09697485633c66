import Verif.Model.Apostle
import Verif.Model.MyMath
import Verif.Spec.HydroFile
/-!
# Model of the HDF5 snapshot reader, field by field (src/io/apostle_io.cpp, src/hdf_wrapper.h)

`Model/Apostle.lean` treats the datasets of a type as one list of records. Here the datasets are read one
by one as the code does, with the header, the names and the compile-time switches; the files of the
snapshot are given as a list in the order of their numbers (`GetFileName` is in `Model/SnapNumber.lean`).
Particle counts are non-negative. Conversions between `float` and `double` are exact in the model.
The broadcast of header and offsets is C12 and C64; the throttling of the reads `Model/Throttle.lean`.
-/
namespace HBT.Model
open HBT.Spec (SnapParticle HydroGroup HydroHeader HydroFile)

variable {K : Type} [Field K] [LinearOrder K] [IsStrictOrderedRing K] [FloorRing K]

/-- What the reader depends on: compile-time switches and configuration. Part of `readEnergies`, src/io/apostle_io.cpp:210-217. -/
structure HydroEnv (K : Type) where
  sqrt : K → K
  /-- macro `DM_ONLY` -/
  dmOnly : Bool
  /-- macro `HAS_THERMAL_ENERGY` -/
  thermal : Bool
  /-- `sizeof(HBTInt)` -/
  intBytes : Nat
  /-- `HBTConfig.BoxSize` -/
  boxSize : K
  /-- `HBTConfig.PeriodicBoundaryOn` -/
  periodic : Bool

/-- A `ParticleHost_t`, src/io/apostle_io.h:30-33; `none`: the host is not set. -/
abbrev HostedParticle (K : Type) := SnapParticle K × Option Int

/-- `ReadDataset(loc, name, type, buf)` into a fresh vector of `np` elements, src/hdf_wrapper.h:37-54: the
vector has zeros; a missing dataset gives a message and leaves them; otherwise the whole dataset is
written to the vector, past its end if it is longer. -/
def readDataset {α : Type} (zero : α) (np : Nat) (d : Option (List α)) : Outcome (List α) :=
  match d with
  | none => .ok (List.replicate np zero)
  | some l => if l.length ≤ np then .ok (l ++ List.replicate (np - l.length) zero) else .ub

/-- The conversion of a stored integer to `HBTInt` by HDF5, which clips values out of range.
Part of `readFields`, src/io/apostle_io.cpp:160-230. -/
def hdfInt (intBytes : Nat) (x : Int) : Int :=
  if x < -(256 ^ intBytes / 2 : Nat) then -(256 ^ intBytes / 2 : Nat)
  else if (256 ^ intBytes / 2 : Nat) ≤ x then (256 ^ intBytes / 2 : Nat) - 1
  else x

/-- `for(i..np) ParticlesThisType[i].field=value[i]`, `i` counting from the start of the type.
Part of `readEnergies`, src/io/apostle_io.cpp:210-217. -/
def setField {α β : Type} (f : α → β → α) : Nat → List β → List α → Outcome (List α)
  | _, [], buf => .ok buf
  | i, b :: bs, buf => do
    let p ← Outcome.get buf i
    let buf ← Outcome.set buf i (f p b)
    setField f (i + 1) bs buf

/-- `if(H5Lexists(loc, name)) ReadDataset(loc, name, ..) else ReadDataset(loc, other, ..)`,
src/io/apostle_io.cpp:175-178, 195-198, 277-280 and 298-301. -/
def readEither {α : Type} (zero : α) (np : Nat) (d other : Option (List α)) : Outcome (List α) :=
  match d with
  | some l => readDataset zero np (some l)
  | none => readDataset zero np other

/-- Masses, src/io/apostle_io.cpp:192-206 and 295-309: the values assigned. -/
def readMasses (h : HydroHeader K) (itype : Fin 6) (np : Nat) (g : HydroGroup K) : Outcome (List K) :=
  if h.massTable itype = 0 then readEither 0 np g.masses g.mass
  else .ok (List.replicate np (h.massTable itype))

/-- Internal energies, src/io/apostle_io.cpp:210-217 and 313-320. -/
def readEnergies (env : HydroEnv K) (itype : Fin 6) (np : Nat) (g : HydroGroup K) (start : Nat)
    (buf : List (HostedParticle K)) : Outcome (List (HostedParticle K)) :=
  if env.thermal = true ∧ itype = 0 then do
    let u ← readDataset 0 np g.internalEnergy
    setField (fun p u => ({ p.1 with energy := some u }, p.2)) start u buf
  else .ok buf

/-- `check_id_size`, src/io/apostle_io.cpp:126-134. Without the dataset, `H5Tget_size` gives 0. -/
def checkIdSize (env : HydroEnv K) (g : HydroGroup K) : Outcome Unit :=
  match g.particleIDs with
  | none => .ok ()
  | some (isz, _) => if isz ≤ env.intBytes then .ok () else .abort

/-- The fields of `Particle_t` of type `itype`, src/io/apostle_io.cpp:160-230 and 260-334. -/
def readFields (env : HydroEnv K) (h : HydroHeader K) (itype : Fin 6) (np : Nat) (g : HydroGroup K)
    (start : Nat) (buf : List (HostedParticle K)) : Outcome (List (HostedParticle K)) := do
  let x ← readDataset (fun _ => 0) np g.coordinates
  let x := if env.periodic then x.map (fun (x : Fin 3 → K) (j : Fin 3) => positionModulus (x j) h.boxSize) else x
  let buf ← setField (fun p x => ({ p.1 with pos := x }, p.2)) start x buf
  let v ← readEither (fun _ => 0) np g.velocities g.velocity
  let buf ← setField (fun p v => ({ p.1 with vel := fun j => v j * env.sqrt h.time }, p.2)) start v buf
  let id ← readDataset 0 np (g.particleIDs.map fun l => l.2.map (hdfInt env.intBytes))
  let buf ← setField (fun p i => ({ p.1 with id := i }, p.2)) start id buf
  let m ← readMasses h itype np g
  let buf ← setField (fun p m => ({ p.1 with mass := m }, p.2)) start m buf
  if env.dmOnly then .ok buf
  else do
    let buf ← readEnergies env itype np g start buf
    setField (fun p t => ({ p.1 with type := some t }, p.2)) start (List.replicate np itype.val) buf

/-- The host ids, src/io/apostle_io.cpp:336-341. -/
def readHosts (env : HydroEnv K) (np : Nat) (g : HydroGroup K) (start : Nat)
    (buf : List (HostedParticle K)) : Outcome (List (HostedParticle K)) := do
  let id ← readDataset 0 np (g.groupNumber.map fun l => l.map (hdfInt env.intBytes))
  setField (fun p i => (p.1, some (hostOf i))) start id buf

/-- The body of the loop over the types: `ReadSnapshot`, src/io/apostle_io.cpp:158-232 (`hosts` false), or
`ReadGroupParticles`, 260-343, with `FlagReadParticleId` as always set (427). -/
def readHydroType (env : HydroEnv K) (h : HydroHeader K) (hosts : Bool) (itype : Fin 6) (np : Nat)
    (g : HydroGroup K) (start : Nat) (buf : List (HostedParticle K)) : Outcome (List (HostedParticle K)) :=
  if hosts then do
    let buf ← readFields env h itype np g start buf
    readHosts env np g start buf
  else do
    let _ ← checkIdSize env g
    readFields env h itype np g start buf

/-- `GetParticleCountInFile`, src/io/apostle_io.cpp:95-102. -/
def hydroCount (env : HydroEnv K) (f : HydroFile K) (t : Fin 6) : Nat :=
  if env.dmOnly = true ∧ t ≠ 1 then 0 else f.npart t

/-- The loop over the types, src/io/apostle_io.cpp:147-155 and 250-258; `off` are the entries of
`offset_this` for the types in `ts`. -/
def readHydroTypes (env : HydroEnv K) (h : HydroHeader K) (hosts : Bool) (f : HydroFile K) (base : Nat) :
    List (Fin 6) → List Nat → List (HostedParticle K) → Outcome (List (HostedParticle K))
  | [], _, buf => .ok buf
  | _ :: _, [], _ => .ub
  | t :: ts, o :: off, buf =>
    if hydroCount env f t = 0 then readHydroTypes env h hosts f base ts off buf
    else match f.parts t with
      | none => readHydroTypes env h hosts f base ts off buf
      | some g => do
        let buf ← readHydroType env h hosts t (hydroCount env f t) g (base + o) buf
        readHydroTypes env h hosts f base ts off buf

/-- `ReadSnapshot(ifile, ..)`, src/io/apostle_io.cpp:135-236, and `ReadGroupParticles(ifile, ..)`, 238-347. -/
def readHydroFile (env : HydroEnv K) (h : HydroHeader K) (hosts : Bool) (f : HydroFile K) (base : Nat)
    (buf : List (HostedParticle K)) : Outcome (List (HostedParticle K)) :=
  readHydroTypes env h hosts f base (List.finRange 6)
    (compileOffsets ((List.finRange 6).map (hydroCount env f))).1 buf

/-- A file of the snapshot. `H5Fopen` of a missing file fails and the counts read from it are not set:
undefined. Part of `readHydroHeader`, src/io/apostle_io.cpp:73-94. -/
def openHydro (files : List (HydroFile K)) (i : Nat) : Outcome (HydroFile K) :=
  match files[i]? with
  | some f => .ok f
  | none => .ub

/-- `ReadHeader(0, Header)`, src/io/apostle_io.cpp:73-94. The total counts are not used. -/
def readHydroHeader (env : HydroEnv K) (files : List (HydroFile K)) : Outcome (HydroHeader K) := do
  let f ← openHydro files 0
  if f.header.boxSize = env.boxSize then .ok f.header else .abort

/-- `CompileFileOffsets(nfiles)`, src/io/apostle_io.cpp:103-124, from file `i` on, with `offset` particles
before: the pairs of `offset_file` and `np_file`. -/
def hydroOffsets (env : HydroEnv K) (files : List (HydroFile K)) : Nat → Nat → Nat → Outcome (List (Nat × Nat))
  | 0, _, _ => .ok []
  | n + 1, i, offset => do
    let f ← openHydro files i
    let np := ((List.finRange 6).map (hydroCount env f)).sum
    let rest ← hydroOffsets env files n (i + 1) (offset + np)
    .ok ((offset, np) :: rest)

/-- The files of a process, src/io/apostle_io.cpp:385-389 and 438-439. -/
def readHydroFiles (env : HydroEnv K) (h : HydroHeader K) (hosts : Bool) (files : List (HydroFile K))
    (offsets : List Nat) (skip : Nat) : Nat → Nat → List (HostedParticle K) → Outcome (List (HostedParticle K))
  | 0, _, buf => .ok buf
  | n + 1, iFile, buf => do
    let o ← Outcome.get offsets iFile
    let o0 ← Outcome.get offsets skip
    let f ← openHydro files iFile
    if o < o0 then .ub
    else do
      let buf ← readHydroFile env h hosts f (o - o0) buf
      readHydroFiles env h hosts files offsets skip n (iFile + 1) buf

/-- `LoadSnapshot`, src/io/apostle_io.cpp:349-398 (`hosts` false), and the reading part of `LoadGroups`, 405-441,
on `P` processes: cosmology `(ScaleFactor, OmegaM0, OmegaLambda0)` and particles of each. `blank` is the
value of a new vector element. -/
def loadHydro (env : HydroEnv K) (P : Nat) (hosts : Bool) (blank : HostedParticle K) (files : List (HydroFile K)) :
    Outcome (Fin P → (K × K × K) × List (HostedParticle K)) := do
  let h ← readHydroHeader env files
  let table ← hydroOffsets env files h.numFiles 0 0
  allRanks P fun r => do
    let t ← assignTasks r.val P h.numFiles
    let np := (((table.map Prod.snd).drop t.1).take (t.2 - t.1)).sum
    let ps ← readHydroFiles env h hosts files (table.map Prod.fst) t.1 (t.2 - t.1) t.1 (List.replicate np blank)
    .ok ((h.time, h.omega0, h.omegaLambda), ps)

/-- Reading the hosts for the sort; a host that was never set is undefined.
Part of `loadHydroGroups`, src/io/apostle_io.cpp:405-503. -/
def hostedAll : List (HostedParticle K) → Outcome (List (SnapParticle K × Int))
  | [] => .ok []
  | (p, some h) :: ps => do
    let rest ← hostedAll ps
    .ok ((p, h) :: rest)
  | (_, none) :: _ => .ub

/-- `LoadGroups` from the sort on, src/io/apostle_io.cpp:443-503, as in `loadApostleGroups`. -/
def groupHydro {α I : Type} (P chunksize : Nat) (fill : α) (so : ApostleSorts α I) (info : List α → I)
    (target : List I → Outcome Int) (ps : Fin P → List (α × Int)) : Outcome (Fin P → List (HaloRec Int α)) := do
  let halos ← allRanks P (fun r => localGroups so.hosts (ps r))
  let ranks ← decideApostle so.byId so.byOrder target
    (fun s => (halos s).map (fun h => (h.shell, info h.particles)))
  let moved ← distributeTo chunksize fill so.byRank (fun s => (halos s, ranks s)) (fun _ => [])
  .ok (fun r => mergeHalos so.byHalo (moved r))

/-- `LoadGroups`, src/io/apostle_io.cpp:405-503. -/
def loadHydroGroups {I : Type} (env : HydroEnv K) (P chunksize : Nat) (fill : SnapParticle K)
    (so : ApostleSorts (SnapParticle K) I) (info : List (SnapParticle K) → I) (target : List I → Outcome Int)
    (blank : HostedParticle K) (files : List (HydroFile K)) :
    Outcome (Fin P → List (HaloRec Int (SnapParticle K))) := do
  let ps ← loadHydro env P true blank files
  let ps ← allRanks P (fun r => hostedAll (ps r).2)
  groupHydro P chunksize fill so info target ps

end HBT.Model
