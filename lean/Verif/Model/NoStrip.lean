import Verif.Model.Main
/-!
# Model of the build `HBT.nostrip`

Makefile:21, `NO_STRIPPING`: "track without unbinding". The macro changes one line of `Unbind`
(src/subhalo_unbind.cpp:358-360) and the default of `MergeTrappedSubhalos` (src/config_parser.h:94-98). Everything that does
not call `Unbind` is the code of the other builds and is taken from their models; what calls it is
repeated here with the changed `Unbind`.
-/
namespace HBT.Model
variable {K D E S R : Type}

/-- The `while(true)` loop of `Unbind`, src/subhalo_unbind.cpp:310-422, with `Nbound=Nlast` after the partition (line 359).
As `unbindLoop` otherwise. -/
def unbindLoopNoStrip [LT E] [DecidableLT E] [Zero E] (cfg : UnbindConfig) (env : UnbindEnv K D E) :
    Nat → Nat → List (PE E) → Nat → Outcome (Option (List (PE E) × Nat))
  | 0, _, _, _ => .diverge
  | fuel + 1, k, l, nlast => do
    let r ← partitionEnergy (setEnergies (env.energy k) nlast l) nlast
    let nbound := nlast
    if nbound < cfg.minNum then .ok none
    else
      -- sort(Elist.begin()+Nbound, Elist.begin()+Nlast)
      let l := r.1.take nbound ++ env.sortE ((r.1.take nlast).drop nbound) ++ r.1.drop nlast
      if cfg.fl (cfg.fl nlast * cfg.prec) ≤ cfg.fl nbound then
        -- sort(Elist.begin(), Elist.begin()+Nbound)
        let l := env.sortE (l.take nbound) ++ l.drop nbound
        if 0 < cfg.maxSample ∧ cfg.refine ∧ cfg.maxSample < nbound then do
          let l ← refineOrder env cfg.maxSample l
          .ok (some (l, nbound))
        else .ok (some (l, nbound))
      else unbindLoopNoStrip cfg env fuel (k + 1) l nbound

/-- `Subhalo_t::Unbind`, src/subhalo_unbind.cpp:263-431, in this build. As `unbind` otherwise. -/
def unbindNoStrip [LT E] [DecidableLT E] [Zero E] [MassSum K] (cfg : UnbindConfig) (env : UnbindEnv K D E)
    (fuel : Nat) (snap : Int) (s : Sub K D) : Outcome (Sub K D) :=
  let s := if s.particles.length < cfg.minNum then die snap s else s
  match s.particles with
  | [] => .ok (setBound env.mass 0 s)
  | [_] => .ok (setBound env.mass 1 s)
  | p0 :: _ :: _ => do
    let n := s.particles.length
    let ps := if 0 < cfg.maxSample ∧ cfg.maxSample < n then env.shuffle s.particles else s.particles
    let r ← unbindLoopNoStrip cfg env fuel 0 ((List.range n).map (fun i => ⟨i, env.junk i⟩)) n
    match r with
    | none => do
      let ps ← restoreFirst p0.id ps
      .ok (setBound env.mass 1 (die snap (s.withParticles ps)))
    | some (l, nb) => do
      let ps ← pickAll ps (l.map PE.pid)
      .ok { s with
        nbound := nb
        mbound := boundMass env.mass env.way nb ps
        particles := ps
        snapDeath := nullSnap
        snapSink := if s.sinkTrackId ≠ nullTrack then nullSnap else s.snapSink
        sinkTrackId := nullTrack }

/-- `Unbind` with a bound on the iterations; one iteration suffices when `BoundMassPrecision` is at most 1.
Part of `unbindNodeNoStrip`, src/subhalo_unbind.cpp:444-446. -/
def unbindFullNoStrip [LT E] [DecidableLT E] [Zero E] [MassSum K] (cfg : UnbindConfig) (env : UnbindEnv K D E)
    (snap : Int) (s : Sub K D) : Outcome (Sub K D) :=
  unbindNoStrip cfg env (s.particles.length + 1) snap s

/-- src/subhalo_unbind.cpp:444-446. -/
def unbindNodeNoStrip [LT E] [DecidableLT E] [Zero E] [MassSum K] (cfg : UnbindConfig) (env : Nat → UnbindEnv K D E)
    (snap : Int) (backup : Option (List (Particle D))) (id : Nat) (subs : List (Sub K D)) : Outcome (List (Sub K D)) := do
  let s ← Outcome.get subs id
  match backup with
  | none => do
    let s' ← unbindFullNoStrip cfg (env id) snap s
    Outcome.set subs id s'
  | some own => do
    let s' ← unbindFullNoStrip cfg (env id) snap (s.withParticles own)
    Outcome.set subs id (s'.withParticles s.particles)

/-- `RecursiveUnbind`, src/subhalo_unbind.cpp:432-447. -/
def recursiveUnbindNoStrip [LT E] [DecidableLT E] [Zero E] [MassSum K] (cfg : UnbindConfig) (env : Nat → UnbindEnv K D E)
    (snap : Int) (fuel id : Nat) (subs : List (Sub K D)) : Outcome (List (Sub K D)) :=
  visit (fun id st => do let s ← Outcome.get st id; .ok s.nested) backupOrphan feedHost (unbindNodeNoStrip cfg env snap) fuel id subs

/-- The iteration of `RefineParticles` for one halo, src/subhalo_unbind.cpp:479-489. -/
def refineHostNoStrip [LT E] [DecidableLT E] [Zero E] [MassSum K] (cfg : UnbindConfig) (env : Nat → UnbindEnv K D E)
    (snap : Int) (fuel : Nat) (groups heads : List (List Nat)) (h : Nat) (subs : List (Sub K D)) :
    Outcome (List (Sub K D)) := do
  let g ← Outcome.get groups h
  match g with
  | [] => .ok subs
  | c :: _ => do
    let central ← Outcome.get subs c
    let hs ← Outcome.get heads h
    let subs ← glue c hs subs
    let subs ← recursiveUnbindNoStrip cfg env snap fuel c subs
    unglue c central.nested.length subs

/-- `Subhalos[i].Unbind(*this)`, src/subhalo_unbind.cpp:497-500 and 505-508. -/
def unbindAtNoStrip [LT E] [DecidableLT E] [Zero E] [MassSum K] (cfg : UnbindConfig) (env : Nat → UnbindEnv K D E)
    (snap : Int) (i : Nat) (subs : List (Sub K D)) : Outcome (List (Sub K D)) := do
  let s ← Outcome.get subs i
  let s' ← unbindFullNoStrip cfg (env i) snap s
  Outcome.set subs i s'

/-- `RefineParticles`, src/subhalo_unbind.cpp:460-516, on one process. -/
def refineParticlesNoStrip [LT E] [DecidableLT E] [Zero E] [MassSum K] (cfg : UnbindConfig) (env : Nat → UnbindEnv K D E)
    (snap : Int) (fuel : Nat) (order lone : List Nat) (groups heads : List (List Nat)) (subs : List (Sub K D)) :
    Outcome (List (Sub K D)) := do
  let subs ← runAll (refineHostNoStrip cfg env snap fuel groups heads) order subs
  let subs ← runAll (unbindAtNoStrip cfg env snap) lone subs
  .ok (subs.map (truncateSource cfg))

/-- One iteration of the second unbinding, src/subhalo_merge.cpp:208-210. -/
def unbindMergedNoStrip [LT E] [DecidableLT E] [Zero E] [MassSum K] (cfg : UnbindConfig) (env : Nat → UnbindEnv K D E)
    (snap : Int) (merged : List Nat) (i : Nat) (subs : List (Sub K D)) : Outcome (List (Sub K D)) :=
  if i ∈ merged then unbindAtNoStrip cfg env snap i subs else .ok subs

/-- src/subhalo_merge.cpp:201-215: with `MergeTrappedSubhalos` (off by default in this build,
src/config_parser.h:94-98, but a parameter all the same). -/
def mergeTrappedNoStrip [LT E] [DecidableLT E] [Zero E] [MassSum K] (cfg : UnbindConfig) (env : Nat → UnbindEnv K D E)
    (mass : D → K) (snap : Int) (fuel : Nat) (order each : List Nat) (groups : List (List Nat)) (merged : List Nat)
    (subs : List (Sub K D)) : Outcome (List (Sub K D)) := do
  let subs ← runAll (mergeHost mass snap fuel groups) order subs
  let subs ← runAll (unbindMergedNoStrip cfg env snap merged) each subs
  runAll (truncMerged cfg merged) each subs

/-- `MergeSubhalos`, src/subhalo_merge.cpp:187-220, on one process. -/
def mergeSubhalosNoStrip [LT E] [DecidableLT E] [Zero E] [MassSum K] (cfg : UnbindConfig) (env : Nat → UnbindEnv K D E)
    (mass : D → K) (on : Bool) (sunk : Nat → Nat → Bool) (snap : Int) (fuel : Nat) (order each : List Nat)
    (groups heads : List (List Nat)) (subs : List (Sub K D)) : Outcome (List (Sub K D)) := do
  let glued ← runAll (glueHost groups heads) order subs
  let hosts ← runAll (fillHost glued) each (List.replicate glued.length (-1))
  let r ← detectTraps sunk snap fuel hosts glued
  let done ← if on then mergeTrappedNoStrip cfg env mass snap fuel order each groups r.2 r.1 else .ok r.1
  runAll (unglueHost groups subs) order done

/-- `RefineParticles` and `MergeSubhalos` on one process, HBT.cpp:75-78. -/
def refineMergeNoStrip [MassSum K] [LT E] [DecidableLT E] [Zero E] {P : Nat} (b : Build K D S) (w : SnapInput K D E S R P) (r : Fin P)
    (p : Prepared K D S) (heads : List (List Nat)) (masked : List (Sub K D)) : Outcome (List (Sub K D)) := do
  let refined ← refineParticlesNoStrip b.cfg (w.env r masked) w.snap masked.length
    (w.hostOrder r (List.range p.groups.length))
    (w.loneOrder r (p.field ++ (List.range p.nBirth).map (p.nOld + ·))) p.groups heads masked
  mergeSubhalosNoStrip b.cfg (w.env' r refined) b.mass b.merging (w.sunk r refined) w.snap (refined.length + 1)
    (w.mergeOrder r (List.range p.groups.length)) (w.eachOrder r (List.range (p.nOld + p.nBirth))) p.groups heads refined

/-- The rest of `PrepareCentrals` (src/subhalo_tracking.cpp:529-532), `RefineParticles`, `MergeSubhalos` and `UpdateTracks`. -/
def finishNoStrip [LE K] [DecidableLE K] [MassSum K] [LT E] [DecidableLT E] [Zero E] {P : Nat} (b : Build K D S)
    (w : SnapInput K D E S R P) (p : Fin P → Prepared K D S) : Outcome (Fin P → List (Sub K D)) := do
  let nested ← nestSubhalos b.nestChunk b.sortKeys b.bsearch (fun r => w.nestOrder r (List.range (p r).subs.length))
    (fun r => (p r).groups) (fun r => (p r).field) (fun r => (p r).subs)
  let masked ← allRanks P (fun r => maskSubhalos (nested r).1.length (w.maskOrder r (List.range (p r).groups.length))
    (p r).groups (nested r).2 (nested r).1)
  let merged ← allRanks P (fun r => refineMergeNoStrip b w r (p r) (nested r).2 (masked r))
  updateTracks b.sortMass w.snap (fun r => (p r).halos.map (fun h => b.haloId h.shell)) (fun r => (p r).nBirth)
    (fun r => (nested r).2) merged

/-- One iteration of the main loop, HBT.cpp:55-81. -/
def iterationNoStrip [LE K] [DecidableLE K] [LT K] [DecidableLT K] [MassSum K] [Mul K] [LT R] [DecidableLT R] [LT E] [DecidableLT E]
    [Zero E] {P : Nat} (b : Build K D S) (w : SnapInput K D E S R P) (prev : Fin P → List (Sub K D)) :
    Outcome (Fin P → List (Sub K D)) := do
  let x ← placeParticles b w
  let halos ← updateHalos b x.2 x.1 w.halos
  let subs ← updateSubs b x.2 x.1 prev
  let p ← prepare b w x.1 halos subs
  finishNoStrip b w p

/-- An iteration with `Save`, HBT.cpp:55-83. -/
def takeSnapshotNoStrip [LE K] [DecidableLE K] [LT K] [DecidableLT K] [MassSum K] [Mul K] [LT R] [DecidableLT R] [LT E] [DecidableLT E]
    [Zero E] {P : Nat} (b : Build K D S) (w : SnapInput K D E S R P) (ops : List (WriteOp P)) (prev : Fin P → List (Sub K D))
    (disks : Int → Disk K D) : Outcome ((Fin P → List (Sub K D)) × (Int → Disk K D)) := do
  let out ← iterationNoStrip b w prev
  let d ← saveOps (b.snapId w.snap) out ops (disks w.snap)
  .ok (out, fun i => if i = w.snap then d else disks i)

/-- The main loop, HBT.cpp:55-91, over the given snapshots. -/
def sessionNoStrip [LE K] [DecidableLE K] [LT K] [DecidableLT K] [MassSum K] [Mul K] [LT R] [DecidableLT R] [LT E] [DecidableLT E]
    [Zero E] {P : Nat} (b : Build K D S) : List (SnapInput K D E S R P × List (WriteOp P)) → (Fin P → List (Sub K D)) →
    (Int → Disk K D) → Outcome ((Fin P → List (Sub K D)) × (Int → Disk K D))
  | [], st, disks => .ok (st, disks)
  | x :: xs, st, disks => do
    let y ← takeSnapshotNoStrip b x.1 x.2 st disks
    sessionNoStrip b xs y.1 y.2

end HBT.Model
