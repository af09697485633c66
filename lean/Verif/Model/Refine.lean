import Verif.Model.Mask
import Verif.Model.Unbind
/-!
# Model of `RecursiveUnbind` and `RefineParticles`

src/subhalo_unbind.cpp:432-447 and 460-516, without `INCLUSIVE_MASS`. `env i` is what the unbinding of
subhalo `i` takes from outside (energies, shuffle, sort).
-/
namespace HBT.Model
variable {K D E : Type}

/-- `Unbind` with a bound on the iterations that suffices when `BoundMassPrecision` is at most 1.
Part of `unbindNode`, src/subhalo_unbind.cpp:444-446. -/
def unbindFull [LT E] [DecidableLT E] [Zero E] [MassSum K] (cfg : UnbindConfig) (env : UnbindEnv K D E)
    (snap : Int) (s : Sub K D) : Outcome (Sub K D) :=
  unbind cfg env (s.particles.length + 1) snap s

/-- src/subhalo_unbind.cpp:434-436: the particles of an orphan are remembered. -/
def backupOrphan (id : Nat) (subs : List (Sub K D)) : Outcome (Option (List (Particle D))) := do
  let s ← Outcome.get subs id
  .ok (if s.nbound ≤ 1 then some s.particles else none)

/-- src/subhalo_unbind.cpp:442: the unbound particles of the nested subhalo `c` are appended to those of `id`.
`begin()+Nbound` beyond the end is undefined. -/
def feedHost (id c : Nat) (subs : List (Sub K D)) : Outcome (List (Sub K D)) := do
  let t ← Outcome.get subs c
  if t.particles.length < t.nbound then .ub
  else do
    let s ← Outcome.get subs id
    Outcome.set subs id (s.withParticles (s.particles ++ t.particles.drop t.nbound))

/-- src/subhalo_unbind.cpp:444-446: unbinding, for an orphan with its own particles only; the extended list is put back
afterwards. -/
def unbindNode [LT E] [DecidableLT E] [Zero E] [MassSum K] (cfg : UnbindConfig) (env : Nat → UnbindEnv K D E)
    (snap : Int) (backup : Option (List (Particle D))) (id : Nat) (subs : List (Sub K D)) : Outcome (List (Sub K D)) := do
  let s ← Outcome.get subs id
  match backup with
  | none => do
    let s' ← unbindFull cfg (env id) snap s
    Outcome.set subs id s'
  | some own => do
    let s' ← unbindFull cfg (env id) snap (s.withParticles own)
    Outcome.set subs id (s'.withParticles s.particles)

/-- `RecursiveUnbind`, src/subhalo_unbind.cpp:432-447. -/
def recursiveUnbind [LT E] [DecidableLT E] [Zero E] [MassSum K] (cfg : UnbindConfig) (env : Nat → UnbindEnv K D E)
    (snap : Int) (fuel id : Nat) (subs : List (Sub K D)) : Outcome (List (Sub K D)) :=
  visit (fun id st => do let s ← Outcome.get st id; .ok s.nested) backupOrphan feedHost (unbindNode cfg env snap) fuel id subs

/-- The iteration of `RefineParticles` for one halo, src/subhalo_unbind.cpp:479-489. -/
def refineHost [LT E] [DecidableLT E] [Zero E] [MassSum K] (cfg : UnbindConfig) (env : Nat → UnbindEnv K D E)
    (snap : Int) (fuel : Nat) (groups heads : List (List Nat)) (h : Nat) (subs : List (Sub K D)) :
    Outcome (List (Sub K D)) := do
  let g ← Outcome.get groups h
  match g with
  | [] => .ok subs
  | c :: _ => do
    let central ← Outcome.get subs c
    let hs ← Outcome.get heads h
    let subs ← glue c hs subs
    let subs ← recursiveUnbind cfg env snap fuel c subs
    unglue c central.nested.length subs

/-- `Subhalos[i].Unbind(*this)`, src/subhalo_unbind.cpp:497-500 and 505-508. -/
def unbindAt [LT E] [DecidableLT E] [Zero E] [MassSum K] (cfg : UnbindConfig) (env : Nat → UnbindEnv K D E)
    (snap : Int) (i : Nat) (subs : List (Sub K D)) : Outcome (List (Sub K D)) := do
  let s ← Outcome.get subs i
  let s' ← unbindFull cfg (env i) snap s
  Outcome.set subs i s'

/-- `RefineParticles`, src/subhalo_unbind.cpp:460-516, on one process: the hosts in the order `order`, the field and
the new subhaloes in the order `lone`, then the truncation of all sources. -/
def refineParticles [LT E] [DecidableLT E] [Zero E] [MassSum K] (cfg : UnbindConfig) (env : Nat → UnbindEnv K D E)
    (snap : Int) (fuel : Nat) (order lone : List Nat) (groups heads : List (List Nat)) (subs : List (Sub K D)) :
    Outcome (List (Sub K D)) := do
  let subs ← runAll (refineHost cfg env snap fuel groups heads) order subs
  let subs ← runAll (unbindAt cfg env snap) lone subs
  .ok (subs.map (truncateSource cfg))

end HBT.Model
