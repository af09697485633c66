import Verif.Spec.GadgetFile
/-!
# Specification: HDF5 snapshot files with group numbers

What a simulation writes: for each of the six particle types its particles, with their group numbers,
and a header. A file stores them as named datasets in a group for each type. `velocities`/`velocity` and
`masses`/`mass` are alternative names for the same data.
-/
namespace HBT.Spec

/-- A particle as the simulation writes it. -/
structure HydroRecord (K : Type) where
  pos : Fin 3 → K
  vel : Fin 3 → K
  id : Int
  /-- used if the header gives no common mass for the type -/
  mass : K
  /-- used for gas -/
  energy : K
  /-- number of the group it belongs to; negative: none -/
  group : Int

/-- The datasets of a type. -/
structure HydroGroup (K : Type) where
  coordinates : Option (List (Fin 3 → K))
  velocities : Option (List (Fin 3 → K))
  velocity : Option (List (Fin 3 → K))
  /-- size of the members in the file, in bytes, and the ids -/
  particleIDs : Option (Nat × List Int)
  masses : Option (List K)
  mass : Option (List K)
  internalEnergy : Option (List K)
  groupNumber : Option (List Int)

/-- The header, except for the particle counts of the file. -/
structure HydroHeader (K : Type) where
  numFiles : Nat
  boxSize : K
  time : K
  omega0 : K
  omegaLambda : K
  massTable : Fin 6 → K

/-- A file: header, announced counts, and the datasets of the types. -/
structure HydroFile (K : Type) where
  header : HydroHeader K
  npart : Fin 6 → Nat
  parts : Fin 6 → Option (HydroGroup K)

/-- The file in which a simulation stores the particles `parts`. `oldNames`: it uses the names
`Velocity` and `Mass`; `isz` is the size of ids in the file; `keepEmpty`: it also makes a group for a type
without particles. -/
def hydroFile {K : Type} (oldNames : Bool) (isz : Nat) (keepEmpty : Bool) (h : HydroHeader K)
    (parts : Fin 6 → List (HydroRecord K)) : HydroFile K where
  header := h
  npart t := (parts t).length
  parts t :=
    if (parts t).isEmpty && !keepEmpty then none
    else some {
      coordinates := some ((parts t).map HydroRecord.pos)
      velocities := if oldNames then none else some ((parts t).map HydroRecord.vel)
      velocity := if oldNames then some ((parts t).map HydroRecord.vel) else none
      particleIDs := some (isz, (parts t).map HydroRecord.id)
      masses := if oldNames then none else some ((parts t).map HydroRecord.mass)
      mass := if oldNames then some ((parts t).map HydroRecord.mass) else none
      internalEnergy := some ((parts t).map HydroRecord.energy)
      groupNumber := some ((parts t).map HydroRecord.group) }

/-- What a reader should make of the files. -/
structure HydroReading (K : Type) where
  /-- placement of a coordinate in the box -/
  place : K → K
  /-- conversion factor of velocities -/
  velScale : K
  /-- common masses of the types; zero: each particle has its own -/
  massTable : Fin 6 → K
  /-- only type 1 is wanted -/
  dmOnly : Bool
  /-- energies are wanted -/
  thermal : Bool

/-- Entry `i` of a dataset; zero if there is no such dataset or entry. -/
def entry {α : Type} (zero : α) (d : Option (List α)) (i : Nat) : α :=
  match d with
  | none => zero
  | some l => match l[i]? with
    | none => zero
    | some x => x

variable {K : Type} [Zero K] [Mul K] [DecidableEq K]

/-- Particle `i` of the datasets of a type, with zeros for what is missing. `clip` restricts integers to
the range of the reader's integers. -/
def HydroGroup.record (clip : Int → Int) (g : HydroGroup K) (i : Nat) : HydroRecord K where
  pos := entry (fun _ => 0) g.coordinates i
  vel := entry (fun _ => 0) (if g.velocities.isSome then g.velocities else g.velocity) i
  id := clip (entry 0 (g.particleIDs.map Prod.snd) i)
  mass := entry 0 (if g.masses.isSome then g.masses else g.mass) i
  energy := entry 0 g.internalEnergy i
  group := clip (entry 0 g.groupNumber i)

/-- No dataset of the type has more than `np` entries. -/
structure HydroGroup.AtMost (np : Nat) (g : HydroGroup K) : Prop where
  coordinates : ∀ l ∈ g.coordinates, l.length ≤ np
  velocities : ∀ l ∈ g.velocities, l.length ≤ np
  velocity : ∀ l ∈ g.velocity, l.length ≤ np
  particleIDs : ∀ l ∈ g.particleIDs, l.2.length ≤ np
  masses : ∀ l ∈ g.masses, l.length ≤ np
  mass : ∀ l ∈ g.mass, l.length ≤ np
  internalEnergy : ∀ l ∈ g.internalEnergy, l.length ≤ np
  groupNumber : ∀ l ∈ g.groupNumber, l.length ≤ np

/-- The particle in memory for a particle of type `t`. -/
def HydroReading.particle (R : HydroReading K) (t : Fin 6) (p : HydroRecord K) : SnapParticle K where
  pos j := R.place (p.pos j)
  vel j := p.vel j * R.velScale
  id := p.id
  mass := if R.massTable t = 0 then p.mass else R.massTable t
  type := if R.dmOnly then none else some t.val
  energy := if R.dmOnly = false ∧ R.thermal = true ∧ t = 0 then some p.energy else none

/-- The particles in memory for the wanted types of a file whose datasets may be incomplete: as many as
announced; a type without data leaves the memory as it was. -/
def HydroReading.stored (R : HydroReading K) (clip : Int → Int) (blank : SnapParticle K) (f : HydroFile K) :
    List (SnapParticle K) :=
  (List.finRange 6).flatMap fun t =>
    if R.dmOnly = true ∧ t ≠ 1 then []
    else (List.range (f.npart t)).map fun i =>
      match f.parts t with
      | none => blank
      | some g => R.particle t (g.record clip i)

/-- What a reader needs of a file: for the wanted types, no dataset is longer than announced; if ids are
checked, they are not wider than the reader's integers of `hb` bytes. -/
def HydroFile.Readable (dmOnly checkIds : Bool) (hb : Nat) (f : HydroFile K) : Prop :=
  ∀ t, (dmOnly = true → t = 1) → f.npart t ≠ 0 → ∀ g ∈ f.parts t, g.AtMost (f.npart t) ∧
    (checkIds = true → ∀ l ∈ g.particleIDs, l.1 ≤ hb)

/-- The integers of `hb` bytes. -/
def Fits (hb : Nat) (x : Int) : Prop := -(256 ^ hb / 2 : Nat) ≤ x ∧ x < (256 ^ hb / 2 : Nat)

/-- The integer of `hb` bytes closest to `x`. -/
def clipTo (hb : Nat) (x : Int) : Int := max (-((256 ^ hb / 2 : Nat) : Int)) (min (((256 ^ hb / 2 : Nat) : Int) - 1) x)

/-- The wanted particles of a file, type after type. -/
def HydroReading.wanted (R : HydroReading K) (parts : Fin 6 → List (HydroRecord K)) :
    List (Fin 6 × HydroRecord K) :=
  (List.finRange 6).flatMap fun t => if R.dmOnly = true ∧ t ≠ 1 then [] else (parts t).map fun p => (t, p)

end HBT.Spec
