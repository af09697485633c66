import Verif.Model.OptionalOutput
import Verif.Model.Purge
import Verif.Model.Register
/-!
# Model of `RefineParticles`, `MergeSubhalos` and `RegisterNewTracks` with the energies of the subhaloes

As `Model/Refine.lean`, `Model/Merge.lean` and `Model/Register.lean`, in a build with `SAVE_BINDING_ENERGY`: each subhalo has its `Energies` (src/subhalo.h:90) beside it. Only `Unbind` touches
them.
-/
namespace HBT.Model
open HBT HBT.Spec
variable {K D E : Type}

/-- Code that does not touch `Energies`: each subhalo keeps its own. Part of `recursiveUnbindStored`, src/subhalo_unbind.cpp:432-447. -/
def onSubs (f : List (Sub K D) → Outcome (List (Sub K D))) (st : List (Sub K D × List E)) : Outcome (List (Sub K D × List E)) := do
  let subs ← f (st.map Prod.fst)
  .ok (subs.zip (st.map Prod.snd))

/-- src/subhalo_unbind.cpp:444-446, as `unbindNode`. -/
def unbindNodeStored [LT E] [DecidableLT E] [Zero E] [MassSum K] (cfg : UnbindConfig) (env : Nat → UnbindEnv K D E)
    (snap : Int) (backup : Option (List (Particle D))) (id : Nat) (st : List (Sub K D × List E)) : Outcome (List (Sub K D × List E)) := do
  let s ← Outcome.get st id
  match backup with
  | none => do
    let r ← unbindStored cfg (env id) (s.1.particles.length + 1) snap s.1
    Outcome.set st id r
  | some own => do
    let r ← unbindStored cfg (env id) (own.length + 1) snap (s.1.withParticles own)
    Outcome.set st id (r.1.withParticles s.1.particles, r.2)

/-- `RecursiveUnbind`, src/subhalo_unbind.cpp:432-447, as `recursiveUnbind`. -/
def recursiveUnbindStored [LT E] [DecidableLT E] [Zero E] [MassSum K] (cfg : UnbindConfig) (env : Nat → UnbindEnv K D E)
    (snap : Int) (fuel id : Nat) (st : List (Sub K D × List E)) : Outcome (List (Sub K D × List E)) :=
  visit (fun id st => do let s ← Outcome.get st id; .ok s.1.nested) (fun id st => backupOrphan id (st.map Prod.fst))
    (fun id c => onSubs (feedHost id c)) (unbindNodeStored cfg env snap) fuel id st

/-- The iteration of `RefineParticles` for one halo, src/subhalo_unbind.cpp:479-489, as `refineHost`. -/
def refineHostStored [LT E] [DecidableLT E] [Zero E] [MassSum K] (cfg : UnbindConfig) (env : Nat → UnbindEnv K D E)
    (snap : Int) (fuel : Nat) (groups heads : List (List Nat)) (h : Nat) (st : List (Sub K D × List E)) :
    Outcome (List (Sub K D × List E)) := do
  let g ← Outcome.get groups h
  match g with
  | [] => .ok st
  | c :: _ => do
    let central ← Outcome.get st c
    let hs ← Outcome.get heads h
    let st ← onSubs (glue c hs) st
    let st ← recursiveUnbindStored cfg env snap fuel c st
    onSubs (unglue c central.1.nested.length) st

/-- `Subhalos[i].Unbind(*this)`, src/subhalo_unbind.cpp:497-500 and 505-508. -/
def unbindAtStored [LT E] [DecidableLT E] [Zero E] [MassSum K] (cfg : UnbindConfig) (env : Nat → UnbindEnv K D E)
    (snap : Int) (i : Nat) (st : List (Sub K D × List E)) : Outcome (List (Sub K D × List E)) := do
  let s ← Outcome.get st i
  let r ← unbindStored cfg (env i) (s.1.particles.length + 1) snap s.1
  Outcome.set st i r

/-- `RefineParticles`, src/subhalo_unbind.cpp:460-516, as `refineParticles`. -/
def refineStored [LT E] [DecidableLT E] [Zero E] [MassSum K] (cfg : UnbindConfig) (env : Nat → UnbindEnv K D E)
    (snap : Int) (fuel : Nat) (order lone : List Nat) (groups heads : List (List Nat)) (st : List (Sub K D × List E)) :
    Outcome (List (Sub K D × List E)) := do
  let st ← runAll (refineHostStored cfg env snap fuel groups heads) order st
  let st ← runAll (unbindAtStored cfg env snap) lone st
  .ok (st.map (fun s => (truncateSource cfg s.1, s.2)))

/-- One iteration of the second unbinding, src/subhalo_merge.cpp:208-210, as `unbindMerged`. -/
def unbindMergedStored [LT E] [DecidableLT E] [Zero E] [MassSum K] (cfg : UnbindConfig) (env : Nat → UnbindEnv K D E)
    (snap : Int) (merged : List Nat) (i : Nat) (st : List (Sub K D × List E)) : Outcome (List (Sub K D × List E)) :=
  if i ∈ merged then unbindAtStored cfg env snap i st else .ok st

/-- src/subhalo_merge.cpp:201-215, as `mergeTrapped`. -/
def mergeTrappedStored [LT E] [DecidableLT E] [Zero E] [MassSum K] (cfg : UnbindConfig) (env : Nat → UnbindEnv K D E)
    (mass : D → K) (snap : Int) (fuel : Nat) (order each : List Nat) (groups : List (List Nat)) (merged : List Nat)
    (st : List (Sub K D × List E)) : Outcome (List (Sub K D × List E)) := do
  let st ← onSubs (runAll (mergeHost mass snap fuel groups) order) st
  let st ← runAll (unbindMergedStored cfg env snap merged) each st
  onSubs (runAll (truncMerged cfg merged) each) st

/-- `MergeSubhalos`, src/subhalo_merge.cpp:187-220, as `mergeSubhalos`. -/
def mergeStored [LT E] [DecidableLT E] [Zero E] [MassSum K] (cfg : UnbindConfig) (env : Nat → UnbindEnv K D E)
    (mass : D → K) (on : Bool) (sunk : Nat → Nat → Bool) (snap : Int) (fuel : Nat) (order each : List Nat)
    (groups heads : List (List Nat)) (st : List (Sub K D × List E)) : Outcome (List (Sub K D × List E)) := do
  let glued ← runAll (glueHost groups heads) order (st.map Prod.fst)
  let hosts ← runAll (fillHost glued) each (List.replicate glued.length (-1))
  let r ← detectTraps sunk snap fuel hosts glued
  let trapped := r.1.zip (st.map Prod.snd)
  let done ← if on then mergeTrappedStored cfg env mass snap fuel order each groups r.2 trapped else .ok trapped
  onSubs (runAll (unglueHost groups (st.map Prod.fst)) order) done

/-- src/subhalo_tracking.cpp:544-545, as `moveSub`: the subhalo is moved with its energies. -/
def moveStored (i new : Nat) (s : Sub K D × List E) (st : List (Sub K D × List E)) : Outcome (List (Sub K D × List E)) :=
  if i ≠ new then Outcome.set st new s else .ok st

/-- src/subhalo_tracking.cpp:540-548, as `compactNew`. -/
def compactStored : Nat → Nat → Nat → List (Sub K D × List E) → Outcome (Nat × List (Sub K D × List E))
  | 0, _, new, st => .ok (new, st)
  | n + 1, i, new, st => do
    let s ← Outcome.get st i
    if s.1.nbound > 1 then do
      let st ← moveStored i new s st
      compactStored n (i + 1) (new + 1) st
    else compactStored n (i + 1) new st

/-- src/subhalo_tracking.cpp:538-549 on one rank, as `registerLocal`. What `UpdateTracks` does next touches neither the energies nor, without `INCLUSIVE_MASS`, the particles, and
leaves the subhaloes in their places. -/
def registerStored (st : List (Sub K D × List E)) (nBirth : Nat) : Outcome (List (Sub K D × List E)) :=
  if nBirth ≤ st.length then do
    let old := st.length - nBirth
    let (new, arr) ← compactStored nBirth old old st
    .ok (arr.take new)
  else .ub

/-- One subhalo in `PurgeMostBoundParticles`, src/subhalo_tracking.cpp:585-597, as `purgeOne`: the energies stay. -/
def purgeStored (excl : List Int) (s : Sub K D × List E) (d : D) : Outcome ((Sub K D × List E) × D) := do
  let r ← purgeOne excl s.1 d
  .ok ((r.1, s.2), r.2)

end HBT.Model
