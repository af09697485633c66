import Verif.Model.Unbind
import Verif.Model.OctTree
import Verif.Model.Average
import Verif.Spec.Binding
/-!
# Model of the energies in unbinding

`Unbind` (src/subhalo_unbind.cpp:263-431) with the energies computed: the full computation, the correction for removed particles
and the frames of reference. `Verif/Model/Unbind.lean` takes the energies from outside instead.
-/
namespace HBT.Model
variable {K D : Type} [Field K] [LinearOrder K]

/-- What the energies depend on beside the particles: `PeriodicBoundaryOn`, `BoxSize`, the Hubble parameter and the scale factor of the snapshot, the
switch `UNBIND_WITH_THERMAL_ENERGY`, the gravity solver and the rounding of energies to `float`. `solve k bs` is `tree.Build` for the bodies `bs` in the
iteration `k` (the construction uses random numbers); it gives `EvaluatePotential` of that tree. Part of `unbindPasses`, src/subhalo_unbind.cpp:310-422. -/
structure Physics (K : Type) where
  periodic : Bool
  boxsize : K
  hz : K
  scale : K
  withThermal : Bool
  solve : Nat → List (Weighted K) → Outcome ((Fin 3 → K) → K → Outcome K)
  fl : K → K := id

/-- `VecDot`, src/mymath.h:20-21. -/
def vecDot (x y : Fin 3 → K) : K := x 0 * y 0 + x 1 * y 1 + x 2 * y 2

/-- `epoch.RelativeVelocity(x, v, refPos, refVel, dv)`, src/snapshot.h:100-111, for a particle. -/
def Physics.velocity (ph : Physics K) (pos vel : Fin 3 → K) (ref : Frame K) : Fin 3 → K :=
  relativeVelocity ph.periodic ph.boxsize ph.hz ph.scale pos vel ref.pos ref.vel

/-- The loops over the first `n` entries that set `Elist[i].E`, src/subhalo_unbind.cpp:320-328 and 342-355. `i` is the number of the first entry. -/
def updateFirst (f : Nat → PE K → Outcome K) : Nat → Nat → List (PE K) → Outcome (List (PE K))
  | _, 0, l => .ok l
  | _, _ + 1, [] => .ub
  | i, n + 1, x :: l => do
    let e ← f i x
    let r ← updateFirst f (i + 1) n l
    .ok (⟨x.pid, e⟩ :: r)

/-- `tree.BindingEnergy(x, v, RefPos, RefVel, mass)`, src/gravity_tree.cpp:166-175, with the potential `pot` of the tree. -/
def energyIn (ph : Physics K) (pot : (Fin 3 → K) → K → Outcome K) (ref : Frame K) (b : Body K) (mass : K) : Outcome K := do
  let p ← pot b.pos mass
  let dv := ph.velocity b.pos b.vel ref
  .ok (vecDot dv dv / 2 + p)

/-- The full computation, src/subhalo_unbind.cpp:331-356, for the first `nlast` entries. With `MaxSampleSizeOfPotentialEstimate` and more particles than
that, the tree holds a sample, with larger masses. -/
def fullEnergies (maxSample : Nat) (ph : Physics K) (bs : List (Body K)) (k nlast : Nat) (ref : Frame K) (l : List (PE K)) : Outcome (List (PE K)) := do
  let np := if 0 < maxSample ∧ maxSample < nlast then maxSample else nlast
  let unit : K := if 0 < maxSample ∧ maxSample < nlast then (nlast : K) / maxSample else 1
  let tree ← pickAll bs ((l.take np).map PE.pid)
  let pot ← ph.solve k (tree.map (fun b => (b.mass * unit, b.pos)))
  updateFirst (fun i x => do
    let b ← Outcome.get bs x.pid
    let e ← energyIn ph pot ref b (if i < np then b.mass * unit else 0)
    .ok (if ph.withThermal then ph.fl (ph.fl e + b.thermal) else ph.fl e)) 0 nlast l

/-- The correction for removed particles, src/subhalo_unbind.cpp:312-330: the first `nbound` entries stay; those from `nbound` to `nlast` were removed. `old`
is the frame of the last iteration. -/
def correctEnergies (ph : Physics K) (bs : List (Body K)) (k nlast nbound : Nat) (old ref : Frame K) (l : List (PE K)) : Outcome (List (PE K)) := do
  let diff := ph.velocity old.pos old.vel ref
  let dK := vecDot diff diff / 2
  let removed ← pickAll bs (((l.take nlast).drop nbound).map PE.pid)
  let pot ← ph.solve k (removed.map (fun b => (b.mass, b.pos)))
  updateFirst (fun _ x => do
    let b ← Outcome.get bs x.pid
    let p ← pot b.pos 0
    .ok (ph.fl (x.e + (vecDot (ph.velocity b.pos b.vel old) diff + dK - p)))) 0 nbound l

/-- The energies of an iteration, src/subhalo_unbind.cpp:312-357: corrected if there is an old frame (`CorrectionLoop`), else computed anew. -/
def passEnergies (maxSample : Nat) (ph : Physics K) (bs : List (Body K)) (k nlast nbound : Nat) (corr : Option (Frame K)) (ref : Frame K)
    (l : List (PE K)) : Outcome (List (PE K)) :=
  match corr with
  | some old => correctEnergies ph bs k nlast nbound old ref l
  | none => fullEnergies maxSample ph bs k nbound ref l

/-- `RefineBindingEnergyOrder`, src/subhalo_unbind.cpp:234-262, with the energies computed. -/
def refineEnergies (ph : Physics K) (sortE : List (PE K) → List (PE K)) (bs : List (Body K)) (k size : Nat) (ref : Frame K) (l : List (PE K)) :
    Outcome (List (PE K)) :=
  if l.length < size then .ub
  else do
    let tree ← pickAll bs ((l.take size).map PE.pid)
    let pot ← ph.solve k (tree.map (fun b => (b.mass, b.pos)))
    let inner ← updateFirst (fun _ x => do
      let b ← Outcome.get bs x.pid
      let e ← energyIn ph pot ref b b.mass
      .ok (ph.fl e)) 0 size (l.take size)
    let order := sortE (inner.mapIdx (fun i x => ⟨i, x.e⟩))
    let front ← pickAll l (order.map PE.pid)
    .ok (front ++ l.drop size)

/-- What happened in an iteration: the frame, the particles with their energies, and how many of them were found bound. For the theorems only.
Part of `unbindPasses`, src/subhalo_unbind.cpp:310-422. -/
structure Pass (K : Type) where
  frame : Frame K
  list : List (PE K)
  nbound : Nat

/-- The frame of the first `n` entries, src/subhalo_unbind.cpp:393-394: `AverageVelocity` (105-134) and `AveragePosition` (135-180) of
`EnergySnapshot_t`, which are as those of src/snapshot.cpp. Exact sums. -/
def frameOf (ph : Physics K) (ref : Frame K) (bound : List (Body K)) : Frame K where
  pos := (averagePosition ph.periodic ph.boxsize ref.pos (bound.map (fun b => (b.mass, b.pos)))).2
  vel := (averageVelocity ref.vel (bound.map (fun b => (b.mass, b.vel)))).2

/-- The `while(true)` loop of `Unbind`, src/subhalo_unbind.cpp:310-422, as `unbindLoop` but with the energies computed. `corr` is the old frame if
`CorrectionLoop` is set. `nlast` is `Nlast` of the last iteration. Returns the iterations, and `Elist`, `Nbound` and the frame at the exit by convergence. -/
def unbindPasses (cfg : UnbindConfig) (ph : Physics K) (sortE : List (PE K) → List (PE K)) (bs : List (Body K)) :
    Nat → Nat → Option (Frame K) → Frame K → List (PE K) → Nat → Nat → Outcome (List (Pass K) × Option (List (PE K) × Nat × Frame K))
  | 0, _, _, _, _, _, _ => .diverge
  | fuel + 1, k, corr, ref, l, nlast, nbound => do
    let l ← passEnergies cfg.maxSample ph bs k nlast nbound corr ref l
    let r ← partitionEnergy l nbound
    let pass : Pass K := ⟨ref, l.take nbound, r.2⟩
    if r.2 < cfg.minNum then .ok ([pass], none)
    else do
      -- sort(Elist.begin()+Nbound, Elist.begin()+Nlast)
      let l := r.1.take r.2 ++ sortE ((r.1.take nbound).drop r.2) ++ r.1.drop nbound
      let corr := if nbound - r.2 < r.2 ∧ (cfg.maxSample = 0 ∨ nbound - r.2 < cfg.maxSample) then some ref else corr
      let bound ← pickAll bs ((l.take r.2).map PE.pid)
      let ref := frameOf ph ref bound
      if cfg.fl (cfg.fl nbound * cfg.prec) ≤ cfg.fl r.2 then do
        -- sort(Elist.begin(), Elist.begin()+Nbound)
        let l := sortE (l.take r.2) ++ l.drop r.2
        if 0 < cfg.maxSample ∧ cfg.refine ∧ cfg.maxSample < r.2 then do
          let l ← refineEnergies ph sortE bs (k + 1) cfg.maxSample ref l
          .ok ([pass], some (l, r.2, ref))
        else .ok ([pass], some (l, r.2, ref))
      else do
        let rest ← unbindPasses cfg ph sortE bs fuel (k + 1) corr ref l nbound r.2
        .ok (pass :: rest.1, rest.2)

/-- `Subhalo_t::Unbind`, src/subhalo_unbind.cpp:263-431, as `unbind` but with the energies computed from the data of the particles (`body`). `ref` is the
frame at the start: `ComovingAveragePosition` and `PhysicalAverageVelocity`. Returns the subhalo, the new frame unless the loop was not run or ended by
disruption, and the iterations. -/
def unbindBodies (cfg : UnbindConfig) (ph : Physics K) (sortE : List (PE K) → List (PE K))
    (shuffle : List (Particle D) → List (Particle D)) (junk : Nat → K) (way : Nat) (body : D → Body K)
    (fuel : Nat) (snap : Int) (ref : Frame K) (s : Sub K D) : Outcome (Sub K D × Option (Frame K) × List (Pass K)) :=
  let mass := fun d => (body d).mass
  let s := if s.particles.length < cfg.minNum then die snap s else s
  match s.particles with
  | [] => .ok (setBound mass 0 s, none, [])
  | [_] => .ok (setBound mass 1 s, none, [])
  | p0 :: _ :: _ => do
    let n := s.particles.length
    let ps := if 0 < cfg.maxSample ∧ cfg.maxSample < n then shuffle s.particles else s.particles
    let r ← unbindPasses cfg ph sortE (ps.map (fun p => body p.data)) fuel 0 none ref ((List.range n).map (fun i => ⟨i, junk i⟩)) n n
    match r.2 with
    | none => do
      let ps ← restoreFirst p0.id ps
      .ok (setBound mass 1 (die snap (s.withParticles ps)), none, r.1)
    | some (l, nb, f) => do
      let ps ← pickAll ps (l.map PE.pid)
      .ok ({ s with
        nbound := nb
        mbound := boundMass mass way nb ps
        particles := ps
        snapDeath := nullSnap
        snapSink := if s.sinkTrackId ≠ nullTrack then nullSnap else s.snapSink
        sinkTrackId := nullTrack }, some f, r.1)

/-- The gravity solver of the program: `GravityTree_t`, src/gravity_tree.cpp, src/oct_tree.tpp. `rand k` are the random numbers drawn in iteration `k`, `old k`
the content of `NextnodeFromParticle` before. -/
def treeSolver (periodic : Bool) (boxsize : K) (sqrt : K → K) (soft angle2 G scale res resHalf : K) (rand : Nat → Nat → Nat) (old : Nat → List Int)
    (fuel : Nat) (k : Nat) (bs : List (Weighted K)) : Outcome ((Fin 3 → K) → K → Outcome K) := do
  let pts := bs.map Prod.snd
  let mass := bs.map Prod.fst
  let t ← buildTree (gravityRule pts mass) res resHalf (rand k) fuel (old k) pts 0
  .ok (evaluatePotential periodic boxsize sqrt soft angle2 G scale pts mass pts.length t)

end HBT.Model
