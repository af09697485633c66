import Verif.Model.Merge
import Verif.Model.MyMath
/-!
# Model of the merger criterion: `SubHelper_t`, `SinkDistance` and the walk of `DetectTraps`

src/subhalo_merge.cpp:11-161 and 173-181. Exact arithmetic: the roundings of `float` and `double` are
left out. `ComovingPosition` and `PhysicalVelocity` of a helper that were never written are `none`, and
reading them is undefined.
-/
namespace HBT.Model
variable {K D : Type}

/-- What the criterion reads: the configuration (`HBTConfig.PeriodicBoundaryOn`, `HBTConfig.BoxSize`), `sqrt`, and the members
`Mass`, `ComovingPosition`, `PhysicalVelocity` of a particle (src/datatypes.h, `Particle_t`).
Part of `buildPosition`, src/subhalo_merge.cpp:29-81. -/
structure SinkEnv (K D : Type) where
  periodic : Bool
  boxsize : K
  sqrt : K → K
  mass : D → K
  pos : D → Fin 3 → K
  vel : D → Fin 3 → K

/-- `NumPartCoreMax`, src/subhalo_merge.cpp:11. -/
def numPartCoreMax : Nat := 20

/-- The members `ComovingPosition`, `ComovingSigmaR`, `PhysicalVelocity`, `PhysicalSigmaV` of
`SubHelper_t`, src/subhalo_merge.cpp:14-27. -/
structure Core (K : Type) where
  pos : Option (Fin 3 → K)
  sigmaR : K
  vel : Option (Fin 3 → K)
  sigmaV : K

/-- `msum`, `sx`, `sx2`, src/subhalo_merge.cpp:47-51. -/
structure CoreSums (K : Type) where
  msum : K
  sx : Fin 3 → K
  sx2 : Fin 3 → K

section Field
variable [Field K]

/-- The loop over particles, src/subhalo_merge.cpp:56-71 and 103-114: `f` gives `dx`, `n` passes remain, from `i`. -/
def coreLoop (mass : D → K) (f : D → Fin 3 → K) (ps : List (Particle D)) : Nat → Nat → CoreSums K → Outcome (CoreSums K)
  | 0, _, a => .ok a
  | n + 1, i, a => do
    let p ← Outcome.get ps i
    let m := mass p.data
    coreLoop mass f ps n (i + 1)
      ⟨a.msum + m, fun j => a.sx j + f p.data j * m, fun j => a.sx2 j + f p.data j * f p.data j * m⟩

/-- `sx[j]/=msum`, `sx2[j]/=msum`, `sx2[j]-=sx[j]*sx[j]` and the sum of `sx2`, src/subhalo_merge.cpp:73-80 and 116-126. With a
total mass of zero the code gets NaN and the model 0. -/
def coreSpread (a : CoreSums K) : K :=
  (a.sx2 0 / a.msum - a.sx 0 / a.msum * (a.sx 0 / a.msum))
    + (a.sx2 1 / a.msum - a.sx 1 / a.msum * (a.sx 1 / a.msum))
    + (a.sx2 2 / a.msum - a.sx 2 / a.msum * (a.sx 2 / a.msum))

/-- `BuildPosition`, src/subhalo_merge.cpp:29-81: the position and the spread. -/
def buildPosition [LinearOrder K] (env : SinkEnv K D) (s : Sub K D) : Outcome (Option (Fin 3 → K) × K) :=
  if s.nbound = 0 then .ok (none, 0)
  else do
    let p0 ← Outcome.get s.particles 0
    if s.nbound = 1 then .ok (some (env.pos p0.data), 0)
    else
      let num := if s.nbound > numPartCoreMax then numPartCoreMax else s.nbound
      let origin := env.pos p0.data
      let a ← coreLoop env.mass
        (fun d j => if env.periodic then nearest env.boxsize (env.pos d j - origin j) else env.pos d j)
        s.particles num 0 ⟨0, fun _ => 0, fun _ => 0⟩
      .ok (some (fun j => if env.periodic then a.sx j / a.msum + origin j else a.sx j / a.msum),
        env.sqrt (coreSpread a))

/-- `BuildVelocity`, src/subhalo_merge.cpp:82-127: the velocity and the spread. -/
def buildVelocity (env : SinkEnv K D) (s : Sub K D) : Outcome (Option (Fin 3 → K) × K) :=
  if s.nbound = 0 then .ok (none, 0)
  else if s.nbound = 1 then do
    let p0 ← Outcome.get s.particles 0
    .ok (some (env.vel p0.data), 0)
  else do
    let num := if s.nbound > numPartCoreMax then numPartCoreMax else s.nbound
    let a ← coreLoop env.mass env.vel s.particles num 0 ⟨0, fun _ => 0, fun _ => 0⟩
    .ok (some (fun j => a.sx j / a.msum), env.sqrt (coreSpread a))

/-- One pass of `FillCores`, src/subhalo_merge.cpp:177-178. -/
def buildCore [LinearOrder K] (env : SinkEnv K D) (s : Sub K D) : Outcome (Core K) := do
  let x ← buildPosition env s
  let v ← buildVelocity env s
  .ok ⟨x.1, x.2, v.1, v.2⟩

/-- `FillCores`, src/subhalo_merge.cpp:173-180: a pass writes the helper of its own subhalo only. -/
def fillCores [LinearOrder K] (env : SinkEnv K D) : List (Sub K D) → Outcome (List (Core K))
  | [] => .ok []
  | s :: ss => do
    let c ← buildCore env s
    let cs ← fillCores env ss
    .ok (c :: cs)

/-- `ComovingMostBoundPosition` and `PhysicalMostBoundVelocity` of a subhalo, src/subhalo.h:81-82. -/
structure MostBound (K : Type) where
  pos : Fin 3 → K
  vel : Fin 3 → K

/-- `SinkDistance`, lines 129-134; `Distance` is src/mymath.h, `PeriodicDistance` src/config_parser.h:143-156. A
division by a spread of zero gives an infinity or NaN: `none`. -/
def sinkDistance [LinearOrder K] (env : SinkEnv K D) (sat : MostBound K) (cen : Core K) : Outcome (Option K) :=
  match cen.pos, cen.vel with
  | some x, some v =>
    let d := env.sqrt (periodicDistance2 env.periodic env.boxsize x sat.pos)
    let w := env.sqrt (periodicDistance2 false env.boxsize v sat.vel)
    if cen.sigmaR = 0 ∨ cen.sigmaV = 0 then .ok none
    else .ok (some (d / cen.sigmaR + w / cen.sigmaV))
  | _, _ => .ub

/-- `delta<DeltaCrit`, src/subhalo_merge.cpp:12 and 149: no infinity and no NaN is less than two. -/
def belowCrit [LinearOrder K] : Option K → Bool
  | none => false
  | some d => decide (d < 2)

/-- The loop `while(HostId>=0)` of `DetectTraps`, src/subhalo_merge.cpp:144-159, with the distances computed. -/
def findSinkC [LinearOrder K] (env : SinkEnv K D) (sat : MostBound K) (cores : List (Core K)) (subs : List (Sub K D)) (hosts : List Int) :
    Nat → Int → Outcome (Option Nat)
  | 0, _ => .diverge
  | fuel + 1, h =>
    if h < 0 then .ok none
    else do
      let t ← Outcome.get subs h.toNat
      let below ← if 1 < t.nbound then do
          let c ← Outcome.get cores h.toNat
          let d ← sinkDistance env sat c
          .ok (belowCrit d)
        else .ok false
      if below then .ok (some h.toNat)
      else do
        let h' ← Outcome.get hosts h.toNat
        findSinkC env sat cores subs hosts fuel h'

/-- One pass of `DetectTraps`, src/subhalo_merge.cpp:139-160: the sink found, if subhalo `i` is not trapped yet. `mb` are the most-bound
coordinates of the subhaloes. -/
def trapOfC [LinearOrder K] (env : SinkEnv K D) (mb : List (MostBound K)) (cores : List (Core K)) (fuel : Nat)
    (subs : List (Sub K D)) (hosts : List Int) (i : Nat) : Outcome (Option Nat) := do
  let s ← Outcome.get subs i
  if s.sinkTrackId ≠ nullTrack then .ok none
  else do
    let sat ← Outcome.get mb i
    let h ← Outcome.get hosts i
    findSinkC env sat cores subs hosts fuel h

/-- The sinks found for the subhaloes `is`. Part of `detectTrapsC`, src/subhalo_merge.cpp:173-181. -/
def trapsOfC [LinearOrder K] (env : SinkEnv K D) (mb : List (MostBound K)) (cores : List (Core K)) (fuel : Nat)
    (subs : List (Sub K D)) (hosts : List Int) : List Nat → Outcome (List (Option Nat))
  | [] => .ok []
  | i :: is => do
    let t ← trapOfC env mb cores fuel subs hosts i
    let ts ← trapsOfC env mb cores fuel subs hosts is
    .ok (t :: ts)

/-- `FillCores`, then `DetectTraps`, src/subhalo_merge.cpp:173-181 and 136-161. -/
def detectTrapsC [LinearOrder K] (env : SinkEnv K D) (mb : List (MostBound K)) (snap : Int) (fuel : Nat) (hosts : List Int)
    (subs : List (Sub K D)) : Outcome (List (Sub K D) × List Nat) := do
  let cores ← fillCores env subs
  let ts ← trapsOfC env mb cores fuel subs hosts (List.range subs.length)
  .ok (subs.zipWith (recordTrap snap) ts,
    (subs.zip ts).filterMap (fun x => if 1 < x.1.nbound then x.2 else none))

/-- The test of src/subhalo_merge.cpp:149 for a satellite and a host that is not an orphan. -/
def sinkTest [LinearOrder K] (env : SinkEnv K D) (sat : MostBound K) (host : Sub K D) : Outcome Bool := do
  let c ← buildCore env host
  let d ← sinkDistance env sat c
  .ok (belowCrit d)

end Field
end HBT.Model
