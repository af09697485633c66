import Verif.Spec.Bytes
/-!
# Specification: Gadget-1 snapshot files

What a simulation writes, in the terms of the file format: a 256-byte header, then unformatted
records with positions, velocities, (ids), (masses), (internal energies of gas) and possibly
further data. Reals are given by the bytes they have in the memory of the machine that reads the
file ("words"); counts and ids are given as numbers.
-/
namespace HBT.Spec

/-- The bytes a word has in a file of byte order `fe`, when its bytes in the memory of a machine
of byte order `le` are `w`. -/
def inOrder (fe le : Bool) (w : List Byte) : List Byte := if fe = le then w else w.reverse

/-- The `n` lowest bytes of a natural number, lowest first. -/
def lowBytes : Nat → Nat → List Byte
  | 0, _ => []
  | n + 1, x => BitVec.ofNat 8 x :: lowBytes n (x / 256)

/-- An integer as `n` bytes in two's complement, in byte order `fe`. -/
def intBytes (fe : Bool) (n : Nat) (x : Int) : List Byte :=
  let l := lowBytes n (x % (256 ^ n : Nat)).toNat
  if fe then l else l.reverse

/-- The values of ids an id record of `isz`-byte members can hold, given how the program is told to
read it, and that fit in the program's integers of `hb` bytes. -/
def IdFits (unsigned : Bool) (isz hb : Nat) (x : Int) : Prop :=
  if isz = 4 ∧ unsigned = true then 0 ≤ x ∧ x < 2 ^ 32 ∧ (hb = 4 → x < 2 ^ 31)
  else if isz = 4 then -2 ^ 31 ≤ x ∧ x < 2 ^ 31 else -2 ^ 63 ≤ x ∧ x < 2 ^ 63

/-- A particle as the simulation writes it. -/
structure RawParticle where
  pos : Fin 3 → List Byte
  vel : Fin 3 → List Byte
  id : Int
  /-- used if the header gives no common mass for the type -/
  mass : List Byte
  /-- used for gas -/
  energy : List Byte

/-- The header of a snapshot file, except for the particle counts of the file. -/
structure RawHeader where
  masses : Fin 6 → List Byte
  scaleFactor : List Byte
  redshift : List Byte
  flagSfr : List Byte
  flagFeedback : List Byte
  totals : Fin 6 → Nat
  flagCooling : List Byte
  numFiles : Nat
  boxSize : List Byte
  omegaM0 : List Byte
  omegaLambda0 : List Byte
  hubbleParam : List Byte
  fill : List Byte

/-- A snapshot file: header, the particles of each of the six types, and whatever follows. -/
structure RawFile where
  header : RawHeader
  parts : Fin 6 → List RawParticle
  rest : List Byte

/-- All particles of a file, type after type. -/
def RawFile.all (f : RawFile) : List RawParticle := (List.ofFn f.parts).flatten

/-- Header words have the sizes of the C types. -/
structure RawHeader.WellSized (h : RawHeader) : Prop where
  masses : ∀ t, (h.masses t).length = 8
  scaleFactor : h.scaleFactor.length = 8
  redshift : h.redshift.length = 8
  flagSfr : h.flagSfr.length = 4
  flagFeedback : h.flagFeedback.length = 4
  flagCooling : h.flagCooling.length = 4
  boxSize : h.boxSize.length = 8
  omegaM0 : h.omegaM0.length = 8
  omegaLambda0 : h.omegaLambda0.length = 8
  hubbleParam : h.hubbleParam.length = 8
  fill : h.fill.length = 96

/-- The reals of a particle have `s` bytes. -/
def RawParticle.WellSized (s : Nat) (p : RawParticle) : Prop :=
  (∀ j, (p.pos j).length = s) ∧ (∀ j, (p.vel j).length = s) ∧ p.mass.length = s ∧ p.energy.length = s

/-- The 256 bytes of the header of `f`. -/
def headerBytes (fe le : Bool) (f : RawFile) : List Byte :=
  (List.ofFn fun t => bytes32 fe (BitVec.ofNat 32 (f.parts t).length)).flatten ++
  (List.ofFn fun t => inOrder fe le (f.header.masses t)).flatten ++
  inOrder fe le f.header.scaleFactor ++ inOrder fe le f.header.redshift ++
  inOrder fe le f.header.flagSfr ++ inOrder fe le f.header.flagFeedback ++
  (List.ofFn fun t => bytes32 fe (BitVec.ofNat 32 (f.header.totals t))).flatten ++
  inOrder fe le f.header.flagCooling ++ bytes32 fe (BitVec.ofNat 32 f.header.numFiles) ++
  inOrder fe le f.header.boxSize ++ inOrder fe le f.header.omegaM0 ++
  inOrder fe le f.header.omegaLambda0 ++ inOrder fe le f.header.hubbleParam ++
  f.header.fill

/-- The particles with an entry in the mass record: those of the types without a common mass. -/
def RawFile.massive (noMass : List Byte → Bool) (f : RawFile) : List RawParticle :=
  (List.ofFn fun t => if noMass (f.header.masses t) then f.parts t else []).flatten

/-- The bytes of snapshot file `f`, written in byte order `fe`; `le` is the byte order in which
the words are given, `isz` the size of ids (`hasId`: there is an id record), and `noMass` says
whether a mass word of the header is zero. -/
def gadgetBytes (fe le : Bool) (isz : Nat) (hasId : Bool) (noMass : List Byte → Bool)
    (f : RawFile) : List Byte :=
  record fe (headerBytes fe le f) ++
  record fe (f.all.flatMap fun p => (List.ofFn p.pos).flatMap (inOrder fe le)) ++
  record fe (f.all.flatMap fun p => (List.ofFn p.vel).flatMap (inOrder fe le)) ++
  (if hasId then record fe (f.all.flatMap fun p => intBytes fe isz p.id) else []) ++
  (if (f.massive noMass).isEmpty then []
    else record fe ((f.massive noMass).flatMap fun p => inOrder fe le p.mass)) ++
  (if (f.parts 0).isEmpty then [] else record fe ((f.parts 0).flatMap fun p => inOrder fe le p.energy)) ++
  f.rest

/-- A particle in memory after loading. -/
structure SnapParticle (K : Type) where
  pos : Fin 3 → K
  vel : Fin 3 → K
  id : Int
  mass : K
  /-- `none`: the program has no such member, or it is not set -/
  type : Option Nat
  /-- `none`: the program has no such member, or it is not set -/
  energy : Option K

/-- What a reader should make of the files. -/
structure Reading (K : Type) where
  /-- value of a word of the particle records -/
  real : List Byte → K
  /-- value of a word of the header -/
  dbl : List Byte → K
  /-- placement of a coordinate in the box -/
  place : K → K
  /-- conversion factor of velocities -/
  velScale : K
  /-- ids are taken from the file (otherwise particles are numbered) -/
  hasId : Bool
  /-- only type 1 is wanted -/
  dmOnly : Bool
  /-- energies are wanted -/
  thermal : Bool

variable {K : Type} [Zero K] [Mul K] [DecidableEq K]

/-- The particle in memory for a particle of type `t` of a file. -/
def Reading.particle (R : Reading K) (h : RawHeader) (t : Fin 6) (p : RawParticle) (number : Int) :
    SnapParticle K where
  pos j := R.place (R.real (p.pos j))
  vel j := R.real (p.vel j) * R.velScale
  id := if R.hasId then p.id else number
  mass := if R.dbl (h.masses t) = 0 then R.real p.mass else R.dbl (h.masses t)
  type := if R.dmOnly then none else some t.val
  energy := if R.dmOnly = false ∧ R.thermal = true ∧ t = 0 then some (R.real p.energy) else none

/-- The particles wanted from a file, with their types. -/
def Reading.wanted (R : Reading K) (f : RawFile) : List (Fin 6 × RawParticle) :=
  (List.finRange 6).flatMap fun t =>
    if R.dmOnly = true ∧ t ≠ 1 then [] else (f.parts t).map fun p => (t, p)

/-- The particles in memory for the wanted particles of a list of files, file by file, the first
one having number `n`. -/
def Reading.files (R : Reading K) : Int → List RawFile → List (List (SnapParticle K))
  | _, [] => []
  | n, f :: fs =>
    (R.wanted f).mapIdx (fun i tp => R.particle f.header tp.1 tp.2 (n + i)) ::
      R.files (n + (R.wanted f).length) fs

/-- The sizes and counts in a file of a snapshot of `n` files with reals of `s` bytes and ids of `isz`
bytes, for a program with integers of `hb` bytes that reads four-byte ids as unsigned numbers iff
`unsigned`. -/
structure RawFile.Acceptable (R : Reading K) (unsigned : Bool) (hb s isz n : Nat) (f : RawFile) : Prop where
  header : f.header.WellSized
  parts : ∀ t, ∀ p ∈ f.parts t, p.WellSized s
  /-- record lengths fit in a signed 32-bit marker -/
  small : f.all.length * 3 * s < 2 ^ 31
  numFiles : f.header.numFiles = n
  ids : R.hasId = true → ∀ p ∈ f.all, IdFits unsigned isz hb p.id

/-- The records for masses and energies are where the program expects them. -/
structure RawFile.Complete (R : Reading K) (f : RawFile) : Prop where
  /-- the total count of a type in the header, an unsigned 32-bit number, is not zero if the file
  holds particles of the type -/
  totals : ∀ t, f.parts t ≠ [] → f.header.totals t % 2 ^ 32 ≠ 0
  /-- if energies are wanted, there is gas in the file -/
  gas : R.dmOnly = false → R.thermal = true → f.parts 0 ≠ []
  /-- if only dark matter is wanted and its masses are in the mass record, the file has one -/
  dmMass : R.dmOnly = true → R.dbl (f.header.masses 1) = 0 → f.header.totals 1 % 2 ^ 32 ≠ 0 →
    (f.massive fun w => decide (R.dbl w = 0)) ≠ []

end HBT.Spec
