import Mathlib.Data.Rat.Floor
import Mathlib.Algebra.BigOperators.Group.List.Basic
import Verif.Model.Outcome
import Verif.Spec.Types
import Verif.Spec.MassSum
/-!
# Model of unbinding

src/subhalo_unbind.cpp:12-431 and 449-458. Energies are values of an ordered type `E` (there is no
NaN; the code only compares energies). The gravity solver is a parameter.
-/
namespace HBT.Model
variable {K D E : Type}

/-- `ParticleEnergy_t`, src/subhalo_unbind.cpp:12-16. -/
structure PE (E : Type) where
  pid : Nat
  e : E
  deriving DecidableEq, Repr

/-- The two-pointer loop of `PartitionBindingEnergy`, src/subhalo_unbind.cpp:28-57. The third argument is `iterforward`,
the first one `iterbackward - iterforward`. With `true` the code is in the first inner loop (lines 32-42,
the entry at `iterforward` is the void), with `false` in the second (lines 45-55, the entry at
`iterbackward` is the void). `tmp` is `Etmp`. -/
def partitionLoop [LT E] [DecidableLT E] [Zero E] (tmp : PE E) : Nat → Bool → Nat → List (PE E) →
    Outcome (List (PE E) × Nat)
  | 0, _, _, _ => .ub
  | g + 1, true, i, l =>
    if g = 0 then do
      let l ← Outcome.set l i tmp
      .ok (l, if tmp.e < 0 then i + 1 else i)
    else do
      let x ← Outcome.get l (i + g)
      if x.e < 0 then do
        let l ← Outcome.set l i x
        partitionLoop tmp g false i l
      else partitionLoop tmp g true i l
  | g + 1, false, i, l =>
    if g = 0 then do
      let l ← Outcome.set l (i + 1) tmp
      .ok (l, if tmp.e < 0 then i + 2 else i + 1)
    else do
      let x ← Outcome.get l (i + 1)
      if 0 < x.e then do
        let l ← Outcome.set l (i + 1 + g) x
        partitionLoop tmp g true (i + 1) l
      else partitionLoop tmp g false (i + 1) l

/-- `PartitionBindingEnergy(Elist, len)`, src/subhalo_unbind.cpp:21-58. -/
def partitionEnergy [LT E] [DecidableLT E] [Zero E] (l : List (PE E)) (len : Nat) : Outcome (List (PE E) × Nat) :=
  if len = 0 then .ok (l, 0)
  else do
    let x ← Outcome.get l 0
    if len = 1 then .ok (l, if x.e < 0 then 1 else 0)
    else partitionLoop x len true 0 l

/-- The parameters of `HBTConfig` that unbinding reads: `MinNumPartOfSub`,
`MaxSampleSizeOfPotentialEstimate` (0 or negative: off), `RefineMostboundParticle`,
`BoundMassPrecision` and `SourceSubRelaxFactor`. Part of `unbindLoop`, src/subhalo_unbind.cpp:310-422. -/
structure UnbindConfig where
  minNum : Nat
  maxSample : Nat
  refine : Bool
  prec : ℚ
  relax : ℚ
  fl : ℚ → ℚ := id

/-- What unbinding takes from outside: the energy that the gravity solver gives in iteration `k` to
particle `pid` (src/subhalo_unbind.cpp:312-356: both the full computation and the correction loop; `Elist[i].E` is
overwritten for all `i<Nlast`; each `pid` is in `Elist` once, so that any sequence of results of any
solver is of this form), the energies of `RefineBindingEnergyOrder`, the uninitialised energies at
the start, `random_shuffle`, `std::sort` with `CompEnergy`, the mass of a particle, and the order in which masses are added up. -/
structure UnbindEnv (K D E : Type) where
  energy : Nat → Nat → E
  inner : Nat → E
  junk : Nat → E
  shuffle : List (Particle D) → List (Particle D)
  sortE : List (PE E) → List (PE E)
  mass : D → K
  way : Nat := 0

/-- `Elist[i].E=...` for `i<n`; `f pid` is the energy of particle `pid`. Part of `unbindLoop`, src/subhalo_unbind.cpp:310-422. -/
def setEnergies (f : Nat → E) (n : Nat) (l : List (PE E)) : List (PE E) :=
  l.mapIdx (fun i x => if i < n then ⟨x.pid, f x.pid⟩ else x)

/-- `Elist[k]` for each `k` of a list of indices (`Einner[i]=Elist[Einner[i].pid]`, src/subhalo_unbind.cpp:253;
`p[i]=Particles[Elist[i].pid]`, line 412). -/
def pickAll {α : Type} (l : List α) : List Nat → Outcome (List α)
  | [] => .ok []
  | i :: is => do
    let x ← Outcome.get l i
    let xs ← pickAll l is
    .ok (x :: xs)

/-- `RefineBindingEnergyOrder`, src/subhalo_unbind.cpp:234-262: the first `size` entries in the order of the energies
`inner` (`env.inner pid` for particle `pid`). -/
def refineOrder (env : UnbindEnv K D E) (size : Nat) (l : List (PE E)) : Outcome (List (PE E)) :=
  if l.length < size then .ub
  else do
    let order := env.sortE ((l.take size).mapIdx (fun i x => ⟨i, env.inner x.pid⟩))
    let front ← pickAll l (order.map PE.pid)
    .ok (front ++ l.drop size)

/-- The `while(true)` loop of `Unbind`, src/subhalo_unbind.cpp:310-422, from iteration `k` on with `Nbound = n`. `none` is
the exit by disruption, `some (Elist, Nbound)` the exit by convergence, with `Elist` as it is when the
particles are reordered. `fuel` bounds the number of iterations. -/
def unbindLoop [LT E] [DecidableLT E] [Zero E] (cfg : UnbindConfig) (env : UnbindEnv K D E) :
    Nat → Nat → List (PE E) → Nat → Outcome (Option (List (PE E) × Nat))
  | 0, _, _, _ => .diverge
  | fuel + 1, k, l, nlast => do
    let r ← partitionEnergy (setEnergies (env.energy k) nlast l) nlast
    if r.2 < cfg.minNum then .ok none
    else
      -- sort(Elist.begin()+Nbound, Elist.begin()+Nlast)
      let l := r.1.take r.2 ++ env.sortE ((r.1.take nlast).drop r.2) ++ r.1.drop nlast
      if cfg.fl (cfg.fl nlast * cfg.prec) ≤ cfg.fl r.2 then
        -- sort(Elist.begin(), Elist.begin()+Nbound)
        let l := env.sortE (l.take r.2) ++ l.drop r.2
        if 0 < cfg.maxSample ∧ cfg.refine ∧ cfg.maxSample < r.2 then do
          let l ← refineOrder env cfg.maxSample l
          .ok (some (l, r.2))
        else .ok (some (l, r.2))
      else unbindLoop cfg env fuel (k + 1) l r.2

/-- src/subhalo_unbind.cpp:367-374: the first particle with the given id is swapped to the front. -/
def restoreFirst (id : Int) (ps : List (Particle D)) : Outcome (List (Particle D)) :=
  match ps.findIdx? (fun p => p.id = id) with
  | none => .ok ps
  | some j => do
    let p ← Outcome.get ps j
    let q ← Outcome.get ps 0
    let ps ← Outcome.set ps j q
    Outcome.set ps 0 p

/-- The sum of the masses of the first `n` particles as `CountParticles` makes it, src/subhalo.cpp:479-499. Simplified: in the
build with particle types the sums are made per type. -/
def massOf [MassSum K] (mass : D → K) (n : Nat) (ps : List (Particle D)) : K :=
  MassSum.count ((ps.take n).map (fun p => mass p.data))

/-- The sum of the masses of the first `n` particles as `AverageVelocity` makes it, src/subhalo_unbind.cpp:105-133 and 393.
`way` stands for the order of the particles at that time and for the threads. -/
def boundMass [MassSum K] (mass : D → K) (way n : Nat) (ps : List (Particle D)) : K :=
  MassSum.average way ((ps.take n).map (fun p => mass p.data))

/-- `if(IsAlive()) SnapshotIndexOfDeath=...`. Part of `unbind`, src/subhalo_unbind.cpp:263-431. -/
def die (snap : Int) (s : Sub K D) : Sub K D :=
  if s.snapDeath = nullSnap then { s with snapDeath := snap } else s

/-- `Nbound` and `Mbound` of subhaloes with at most one particle, src/subhalo_unbind.cpp:275-293, and of those that are not bound, 361-377. -/
def setBound [MassSum K] (mass : D → K) (n : Nat) (s : Sub K D) : Sub K D :=
  { s with nbound := n, mbound := massOf mass n s.particles }

/-- `Subhalo_t::Unbind`, src/subhalo_unbind.cpp:263-431, in snapshot `snap`. Left out: the members that `Sub` does not
have (coordinates, velocities, energies, per-type counts). -/
def unbind [LT E] [DecidableLT E] [Zero E] [MassSum K] (cfg : UnbindConfig) (env : UnbindEnv K D E)
    (fuel : Nat) (snap : Int) (s : Sub K D) : Outcome (Sub K D) :=
  let s := if s.particles.length < cfg.minNum then die snap s else s
  match s.particles with
  | [] => .ok (setBound env.mass 0 s)
  | [_] => .ok (setBound env.mass 1 s)
  | p0 :: _ :: _ => do
    let n := s.particles.length
    let ps := if 0 < cfg.maxSample ∧ cfg.maxSample < n then env.shuffle s.particles else s.particles
    let r ← unbindLoop cfg env fuel 0 ((List.range n).map (fun i => ⟨i, env.junk i⟩)) n
    match r with
    | none => do
      let ps ← restoreFirst p0.id ps
      .ok (setBound env.mass 1 (die snap (s.withParticles ps)))
    | some (l, nb) => do
      let ps ← pickAll ps (l.map PE.pid)
      .ok { s with
        nbound := nb
        mbound := boundMass env.mass env.way nb ps
        particles := ps
        snapDeath := nullSnap
        snapSink := if s.sinkTrackId ≠ nullTrack then nullSnap else s.snapSink
        sinkTrackId := nullTrack }

/-- Conversion of a floating point number to an integer. Part of `truncateSource`, src/subhalo_unbind.cpp:449-458. -/
def truncToInt (x : ℚ) : Int := if 0 ≤ x then ⌊x⌋ else ⌈x⌉

/-- `TruncateSource`, src/subhalo_unbind.cpp:449-458. The comparison with `Particles.size()` is unsigned, so a negative
`Nsource` also becomes the size. -/
def truncateSource (cfg : UnbindConfig) (s : Sub K D) : Sub K D :=
  let nsource := if s.nbound ≤ 1 then (s.nbound : Int) else truncToInt (cfg.fl (cfg.fl s.nbound * cfg.relax))
  let nsource := if nsource < 0 ∨ (s.particles.length : Int) < nsource then (s.particles.length : Int) else nsource
  s.withParticles (s.particles.take nsource.toNat)

end HBT.Model
