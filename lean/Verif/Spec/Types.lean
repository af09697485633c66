import Mathlib.Tactic.Simps.Basic
/-!
# Plain types shared by model and specification
-/
namespace HBT

/-- An eight-bit byte. -/
abbrev Byte := BitVec 8

/-- `Particle_t`, src/snapshot.h:47-72: the id and, as one opaque value, all other members
(position, velocity, mass, internal energy, type). -/
structure Particle (D : Type) where
  id : Int
  data : D
  deriving DecidableEq, Repr

/-- `SpecialConst::NullParticleId`, src/datatypes.h:87. -/
def nullId : Int := -1

/-- `SpecialConst::NullTrackId`, `NullSnapshotId`, `NullHaloId`, src/datatypes.h:88-91: all `-1`. -/
def nullTrack : Int := -1
@[inherit_doc nullTrack] def nullSnap : Int := -1
@[inherit_doc nullTrack] def nullHalo : Int := -1

/-- `Subhalo_t`, src/subhalo.h:24-98: the members the tracking code reads and writes. `K` is the type
of masses. Left out: centre coordinates and velocities, per-type counts, profile, shape and
kinetic members (they influence the modelled code only through the kinetic distance and the sink
distance, which are parameters of the model functions that need them), `Energies`, and
`MostBoundParticleId`. -/
structure Sub (K D : Type) where
  /-- `TrackId` -/
  trackId : Int := nullTrack
  /-- `Nbound` -/
  nbound : Nat := 0
  /-- `Mbound` -/
  mbound : K
  /-- `HostHaloId` -/
  hostHaloId : Int := nullHalo
  /-- `Rank` -/
  rank : Int := 0
  /-- `Depth` -/
  depth : Int := 0
  /-- `LastMaxMass` -/
  lastMaxMass : K
  /-- `SnapshotIndexOfLastMaxMass` -/
  snapMaxMass : Int := nullSnap
  /-- `SnapshotIndexOfLastIsolation` -/
  snapIsolation : Int := nullSnap
  /-- `SnapshotIndexOfBirth` -/
  snapBirth : Int := nullSnap
  /-- `SnapshotIndexOfDeath` -/
  snapDeath : Int := nullSnap
  /-- `SnapshotIndexOfSink` -/
  snapSink : Int := nullSnap
  /-- `SinkTrackId` -/
  sinkTrackId : Int := nullTrack
  /-- `Particles` -/
  particles : List (Particle D) := []
  /-- `NestedSubhalos` -/
  nested : List Int := []
  deriving DecidableEq, Repr

/-- `s` with another rank. -/
@[simps] def Sub.withRank {K D : Type} (s : Sub K D) (r : Int) : Sub K D := { s with rank := r }

/-- `s` with another nest. -/
@[simps] def Sub.withNested {K D : Type} (s : Sub K D) (l : List Int) : Sub K D := { s with nested := l }

/-- `s` with another depth. -/
@[simps] def Sub.withDepth {K D : Type} (s : Sub K D) (d : Int) : Sub K D := { s with depth := d }

/-- `s` with other particles. -/
@[simps] def Sub.withParticles {K D : Type} (s : Sub K D) (ps : List (Particle D)) : Sub K D :=
  { s with particles := ps }

end HBT
