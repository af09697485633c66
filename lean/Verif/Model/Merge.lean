import Verif.Model.Refine
/-!
# Model of `MergeSubhalos`

src/subhalo_merge.cpp:136-262 and `GlueHeadNests`/`UnglueHeadNests`, src/subhalo_tracking.cpp:843-874,
without `INCLUSIVE_MASS`. The position and velocity cores (`FillCores`, `SinkDistance`, lines 29-134,
173-181) enter as the parameter `sunk i h`: whether `SinkDistance(Subhalos[i], Helpers[h])<DeltaCrit`.
They are computed once, before any trap is recorded; `Model/Sink` models them.
-/
namespace HBT.Model
variable {K D E : Type}

/-- One iteration of `GlueHeadNests`, src/subhalo_tracking.cpp:848-860. `RootNestSize[h]` is the size of
the nest of the central before. -/
def glueHost (groups heads : List (List Nat)) (h : Nat) (subs : List (Sub K D)) : Outcome (List (Sub K D)) := do
  let g ← Outcome.get groups h
  match g with
  | [] => .ok subs
  | c :: _ => do
    let hs ← Outcome.get heads h
    glue c hs subs

/-- `RootNestSize`, src/subhalo_tracking.cpp:851-857. -/
def rootNestSize (groups : List (List Nat)) (subs : List (Sub K D)) (h : Nat) : Outcome Nat := do
  let g ← Outcome.get groups h
  match g with
  | [] => .ok 0
  | c :: _ => do
    let s ← Outcome.get subs c
    .ok s.nested.length

/-- One iteration of `UnglueHeadNests`, src/subhalo_tracking.cpp:866-871; `before` are the subhaloes
before `GlueHeadNests`. -/
def unglueHost (groups : List (List Nat)) (before : List (Sub K D)) (h : Nat) (subs : List (Sub K D)) :
    Outcome (List (Sub K D)) := do
  let g ← Outcome.get groups h
  match g with
  | [] => .ok subs
  | c :: _ => do
    let n ← rootNestSize groups before h
    unglue c n subs

/-- `for(auto &&subid: nest) Helpers[subid].HostTrackId=i`, src/subhalo_merge.cpp:168-170; `hosts[x]` is
`Helpers[x].HostTrackId`. -/
def fillNest (i : Nat) : List Int → List Int → Outcome (List Int)
  | [], hosts => .ok hosts
  | c :: cs, hosts =>
    if c < 0 then .ub
    else do
      let hosts ← Outcome.set hosts c.toNat (i : Int)
      fillNest i cs hosts

/-- One iteration of `FillHostTrackIds`, src/subhalo_merge.cpp:166-171. -/
def fillHost (subs : List (Sub K D)) (i : Nat) (hosts : List Int) : Outcome (List Int) := do
  let s ← Outcome.get subs i
  fillNest i s.nested hosts

/-- The loop `while(HostId>=0)` of `DetectTraps`, src/subhalo_merge.cpp:144-159, for subhalo `i`: the sink found. -/
def findSink (sunk : Nat → Nat → Bool) (subs : List (Sub K D)) (hosts : List Int) (i : Nat) :
    Nat → Int → Outcome (Option Nat)
  | 0, _ => .diverge
  | fuel + 1, h =>
    if h < 0 then .ok none
    else do
      let t ← Outcome.get subs h.toNat
      if 1 < t.nbound ∧ sunk i h.toNat then .ok (some h.toNat)
      else do
        let h' ← Outcome.get hosts h.toNat
        findSink sunk subs hosts i fuel h'

/-- One iteration of `DetectTraps`, src/subhalo_merge.cpp:139-160: the sink found, if subhalo `i` is not trapped yet. -/
def trapOf (sunk : Nat → Nat → Bool) (fuel : Nat) (subs : List (Sub K D)) (hosts : List Int) (i : Nat) :
    Outcome (Option Nat) := do
  let s ← Outcome.get subs i
  if s.sinkTrackId ≠ nullTrack then .ok none
  else do
    let h ← Outcome.get hosts i
    findSink sunk subs hosts i fuel h

/-- The sinks found for the subhaloes `is`. Part of `detectTraps`, src/subhalo_merge.cpp:136-161. -/
def trapsOf (sunk : Nat → Nat → Bool) (fuel : Nat) (subs : List (Sub K D)) (hosts : List Int) :
    List Nat → Outcome (List (Option Nat))
  | [] => .ok []
  | i :: is => do
    let t ← trapOf sunk fuel subs hosts i
    let ts ← trapsOf sunk fuel subs hosts is
    .ok (t :: ts)

/-- src/subhalo_merge.cpp:151-152. -/
def recordTrap (snap : Int) (s : Sub K D) (t : Option Nat) : Sub K D :=
  match t with
  | none => s
  | some h => { s with sinkTrackId := (h : Int), snapSink := snap }

/-- `DetectTraps`, src/subhalo_merge.cpp:136-161. An iteration writes only the sink of its own subhalo and
`IsMerged`, which no iteration reads, so the sinks are those found in the state before. Returns the
subhaloes and `IsMerged`. -/
def detectTraps (sunk : Nat → Nat → Bool) (snap : Int) (fuel : Nat) (hosts : List Int) (subs : List (Sub K D)) :
    Outcome (List (Sub K D) × List Nat) := do
  let ts ← trapsOf sunk fuel subs hosts (List.range subs.length)
  .ok (subs.zipWith (recordTrap snap) ts,
    (subs.zip ts).filterMap (fun x => if 1 < x.1.nbound then x.2 else none))

/-- src/subhalo_merge.cpp:249-260, 259-261: `MergeTo`. The loop over the particles with the set of ids is that of masking.
With fewer particles than one `resize(1)` would make up a particle: undefined. -/
def mergeTo [MassSum K] (mass : D → K) (sat host : Sub K D) : Outcome (Sub K D × Sub K D) :=
  if sat.nbound ≤ 1 then .ok (sat, host)
  else
    let host' : Sub K D := { host with
      particles := host.particles ++ (maskParticles (host.particles.map Particle.id) sat.particles).2
      nbound := host.nbound + sat.nbound }
    match sat.particles with
    | [] => .ub
    | p :: _ => .ok ({ sat with particles := [p], nbound := 1, mbound := mass p.data }, host')

/-- src/subhalo_merge.cpp:227-231. A subhalo that is its own sink would be extended while it is read: undefined. -/
def mergeOne [MassSum K] (mass : D → K) (snap : Int) (id : Nat) (subs : List (Sub K D)) : Outcome (List (Sub K D)) := do
  let sat ← Outcome.get subs id
  if sat.sinkTrackId ≠ nullTrack ∧ sat.snapDeath = nullSnap then
    if sat.sinkTrackId = (id : Int) then .ub
    else do
      let host ← Outcome.getI subs sat.sinkTrackId
      let r ← mergeTo mass sat host
      let subs ← Outcome.set subs sat.sinkTrackId.toNat r.2
      Outcome.set subs id { r.1 with snapDeath := snap }
  else .ok subs

/-- `MergeRecursive`, src/subhalo_merge.cpp:222-232. -/
def mergeRecursive [MassSum K] (mass : D → K) (snap : Int) (fuel id : Nat) (subs : List (Sub K D)) :
    Outcome (List (Sub K D)) :=
  visit (fun id st => do let s ← Outcome.get st id; .ok s.nested) (fun _ _ => .ok ())
    (fun _ _ st => .ok st) (fun _ => mergeOne mass snap) fuel id subs

/-- One iteration of the loop over haloes, src/subhalo_merge.cpp:204-206. -/
def mergeHost [MassSum K] (mass : D → K) (snap : Int) (fuel : Nat) (groups : List (List Nat)) (h : Nat)
    (subs : List (Sub K D)) : Outcome (List (Sub K D)) := do
  let g ← Outcome.get groups h
  match g with
  | [] => .ok subs
  | c :: _ => mergeRecursive mass snap fuel c subs

/-- One iteration of the second unbinding, src/subhalo_merge.cpp:208-210. -/
def unbindMerged [LT E] [DecidableLT E] [Zero E] [MassSum K] (cfg : UnbindConfig) (env : Nat → UnbindEnv K D E)
    (snap : Int) (merged : List Nat) (i : Nat) (subs : List (Sub K D)) : Outcome (List (Sub K D)) :=
  if i ∈ merged then unbindAt cfg env snap i subs else .ok subs

/-- One iteration of the second truncation, src/subhalo_merge.cpp:212-214. -/
def truncMerged (cfg : UnbindConfig) (merged : List Nat) (i : Nat) (subs : List (Sub K D)) : Outcome (List (Sub K D)) :=
  if i ∈ merged then do
    let s ← Outcome.get subs i
    Outcome.set subs i (truncateSource cfg s)
  else .ok subs

/-- src/subhalo_merge.cpp:201-215: with `MergeTrappedSubhalos`. -/
def mergeTrapped [LT E] [DecidableLT E] [Zero E] [MassSum K] (cfg : UnbindConfig) (env : Nat → UnbindEnv K D E)
    (mass : D → K) (snap : Int) (fuel : Nat) (order each : List Nat) (groups : List (List Nat)) (merged : List Nat)
    (subs : List (Sub K D)) : Outcome (List (Sub K D)) := do
  let subs ← runAll (mergeHost mass snap fuel groups) order subs
  let subs ← runAll (unbindMerged cfg env snap merged) each subs
  runAll (truncMerged cfg merged) each subs

/-- `MergeSubhalos`, src/subhalo_merge.cpp:187-220, on one process. `on` is `MergeTrappedSubhalos`; `order` is an order of
the haloes and `each` an order of the subhaloes in which the iterations of the parallel loops take
effect. -/
def mergeSubhalos [LT E] [DecidableLT E] [Zero E] [MassSum K] (cfg : UnbindConfig) (env : Nat → UnbindEnv K D E)
    (mass : D → K) (on : Bool) (sunk : Nat → Nat → Bool) (snap : Int) (fuel : Nat) (order each : List Nat)
    (groups heads : List (List Nat)) (subs : List (Sub K D)) : Outcome (List (Sub K D)) := do
  let glued ← runAll (glueHost groups heads) order subs
  let hosts ← runAll (fillHost glued) each (List.replicate glued.length (-1))
  let r ← detectTraps sunk snap fuel hosts glued
  let done ← if on then mergeTrapped cfg env mass snap fuel order each groups r.2 r.1 else .ok r.1
  runAll (unglueHost groups subs) order done

end HBT.Model
