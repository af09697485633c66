import Verif.Model.Outcome
import Verif.Model.Average
import Verif.Spec.Types
import Mathlib.Algebra.Order.Monoid.WithTop
/-!
# Model of the quantities summed over the bound particles

`Subhalo_t::CalculateShape`, `CountParticleTypes`, `CountParticles` (src/subhalo.cpp:337-498) and
`EnergySnapshot_t::AverageKinematics` (src/subhalo_unbind.cpp:189-232). Exact arithmetic.
-/
namespace HBT.Model
variable {K : Type} [Field K] [LinearOrder K] {α β : Type}

/-- `#pragma omp for`: the iterations are dealt out to the threads, in any way and any order within a
thread. A single thread (the `if(Nbound>100)` clauses) is one of these ways. For example src/subhalo.cpp:357, 414. -/
structure ParallelSplit (split : List α → List (List α)) : Prop where
  perm : ∀ l, (split l).flatten.Perm l

/-- `#pragma omp parallel for reduction(+:...)`: each thread sums its share from zero, then the sums
of the threads are added. Part of `calculateShape`, src/subhalo.cpp:337-398. -/
def reduction [Add β] [Zero β] (split : List α → List (List α)) (f : α → β) (l : List α) : β :=
  ((split l).map (fun c => c.foldl (fun s p => s + f p) 0)).foldl (· + ·) 0

/-! ### Particle types -/

/-- A particle with its type. Part of `addTypes`, src/subhalo.cpp:416-423. -/
structure TypedParticle (K : Type) where
  id : Int
  type : Int
  mass : K

/-- `NboundType` and `MboundType`; `TypeMax` is 6, src/datatypes.h:179-188. -/
abbrev TypeTable (K : Type) := Fin 6 → Nat × K

/-- `nboundtype[itype]++; mboundtype[itype]+=p.Mass`: a type outside the arrays is undefined.
Part of `addTypes`, src/subhalo.cpp:416-423. -/
def addType (tab : TypeTable K) (p : TypedParticle K) : Outcome (TypeTable K) :=
  if h : 0 ≤ p.type ∧ p.type.toNat < 6 then
    .ok (Function.update tab ⟨p.type.toNat, h.2⟩
      ((tab ⟨p.type.toNat, h.2⟩).1 + 1, (tab ⟨p.type.toNat, h.2⟩).2 + p.mass))
  else .ub

/-- The counting loops, src/subhalo.cpp:416-423, 434-441 and 490-495. `skipNull` is the test of line
437, which is commented out in the parallel version (line 419). -/
def addTypes (skipNull : Bool) : TypeTable K → List (TypedParticle K) → Outcome (TypeTable K)
  | tab, [] => .ok tab
  | tab, p :: ps =>
    if skipNull ∧ p.id = nullId then addTypes skipNull tab ps
    else do
      let tab ← addType tab p
      addTypes skipNull tab ps

/-- The parallel region, src/subhalo.cpp:411-430: private tables added in the critical section, in the
order of the list. -/
def threadTypes : TypeTable K → List (List (TypedParticle K)) → Outcome (TypeTable K)
  | tab, [] => .ok tab
  | tab, c :: cs => do
    let own ← addTypes false (fun _ => (0, 0)) c
    threadTypes (fun t => ((tab t).1 + (own t).1, (tab t).2 + (own t).2)) cs

/-- `CountParticleTypes`, src/subhalo.cpp:400-444 (without `DM_ONLY`). -/
def countParticleTypes (split : List (TypedParticle K) → List (List (TypedParticle K))) (nbound : Nat)
    (ps : List (TypedParticle K)) : Outcome (TypeTable K) :=
  if ps.length < nbound then .ub
  else if nbound > 100 then threadTypes (fun _ => (0, 0)) (split (ps.take nbound))
  else addTypes true (fun _ => (0, 0)) (ps.take nbound)

/-- `CountParticles`, src/subhalo.cpp:479-498: the table and `Mbound`. -/
def countParticles (nbound : Nat) (ps : List (TypedParticle K)) : Outcome (TypeTable K × K) :=
  if ps.length < nbound then .ub
  else do
    let tab ← addTypes false (fun _ => (0, 0)) (ps.take nbound)
    .ok (tab, (List.finRange 6).foldl (fun s t => s + (tab t).2) 0)

/-! ### Shape -/

/-- Offset from the centre, src/subhalo.cpp:364-374. -/
def shapeOffset (periodic : Bool) (boxsize : K) (cen x : Fin 3 → K) (j : Fin 3) : K :=
  if periodic then nearest boxsize (x j - cen j) else x j - cen j

/-- The six products xx, xy, xz, yy, yz, zz, in the order of `InertialTensor`. Part of `shapeOffset`, src/subhalo.cpp:364-374. -/
def products (d : Fin 3 → K) : Fin 6 → K
  | 0 => d 0 * d 0
  | 1 => d 0 * d 1
  | 2 => d 0 * d 2
  | 3 => d 1 * d 1
  | 4 => d 1 * d 2
  | 5 => d 2 * d 2

/-- One pass of the loop, src/subhalo.cpp:360-394. The weighted part divides by `dr2/m`; for a particle
at the centre that is 0/0, not a number, for which the model has `⊤`. (`a/(dr2/m)` is written
`a*m/dr2`, which also holds for `m = 0`, where the code divides by infinity.) -/
def shapeTerm (periodic : Bool) (boxsize : K) (cen : Fin 3 → K) (p : Weighted K) :
    (Fin 6 → K) × WithTop (Fin 6 → K) :=
  let d := shapeOffset periodic boxsize cen p.2
  let dr2 := d 0 * d 0 + d 1 * d 1 + d 2 * d 2
  (fun k => products d k * p.1,
   if dr2 = 0 then ⊤ else ((fun k => products d k * p.1 / dr2 : Fin 6 → K) : WithTop (Fin 6 → K)))

/-- `CalculateShape`, src/subhalo.cpp:337-398, without the eigenvectors (`EigenAxis` uses GSL):
`InertialTensor` and `InertialTensorWeighted`. The loop starts at particle 1. For `Mbound = 0` the
code divides by zero, the model gives 0. -/
def calculateShape (split : List (Weighted K) → List (List (Weighted K))) (periodic : Bool) (boxsize : K)
    (cen : Fin 3 → K) (mbound : K) (particles : List (Weighted K)) (nbound : Nat) :
    Outcome ((Fin 6 → K) × WithTop (Fin 6 → K)) :=
  if nbound ≤ 1 then .ok (0, 0)
  else if particles.length < nbound then .ub
  else
    let s := reduction split (shapeTerm periodic boxsize cen) ((particles.take nbound).drop 1)
    .ok (fun k => s.1 k / mbound, WithTop.map (fun I k => I k / mbound) s.2)

/-! ### Kinematics -/

/-- A bound particle as `AverageKinematics` sees it: mass, position, velocity, and the energy in
`Elist`. Part of `kinTerm`, src/subhalo_unbind.cpp:204-223. -/
structure EnergyParticle (K : Type) where
  mass : K
  pos : Fin 3 → K
  vel : Fin 3 → K
  energy : K

/-- What the loop needs besides the particles. Part of `kinOffset`, src/subhalo_unbind.cpp:213-215. -/
structure KinFrame (K : Type) where
  periodic : Bool
  boxsize : K
  scale : K
  hz : K
  refPos : Fin 3 → K
  refVel : Fin 3 → K

/-- `dx`, src/subhalo_unbind.cpp:213-215. -/
def kinOffset (fr : KinFrame K) (x : Fin 3 → K) (j : Fin 3) : K :=
  (if fr.periodic then nearest fr.boxsize (x j - fr.refPos j) else x j - fr.refPos j) * fr.scale

/-- `dv`, src/subhalo_unbind.cpp:216. -/
def kinVelocity (fr : KinFrame K) (x v : Fin 3 → K) (j : Fin 3) : K :=
  v j - fr.refVel j + fr.hz * kinOffset fr x j

/-- The accumulators `E`, `K`, `AMx..AMz` and `M`. Part of `kinTerm`, src/subhalo_unbind.cpp:204-223. -/
abbrev KinSums (K : Type) := K × K × (Fin 3 → K) × K

/-- One pass of the loop, src/subhalo_unbind.cpp:204-223. -/
def kinTerm (fr : KinFrame K) (p : EnergyParticle K) : KinSums K :=
  let dx := kinOffset fr p.pos
  let dv := kinVelocity fr p.pos p.vel
  (p.energy * p.mass,
   dv 0 * dv 0 * p.mass + dv 1 * dv 1 * p.mass + dv 2 * dv 2 * p.mass,
   (fun j => match j with
    | 0 => (dx 1 * dv 2 - dx 2 * dv 1) * p.mass
    | 1 => (dx 2 * dv 0 - dx 0 * dv 2) * p.mass
    | 2 => (dx 0 * dv 1 - dx 1 * dv 0) * p.mass),
   p.mass)

/-- What `AverageKinematics` stores. src/subhalo_unbind.cpp:189-232. -/
structure Kinematics (K : Type) where
  potential : K
  kinetic : K
  angular : Fin 3 → K

/-- `AverageKinematics`, src/subhalo_unbind.cpp:189-232; `ps` are the particles in the order of
`Elist`. For a total mass of zero the code divides by zero, the model gives 0. -/
def averageKinematics (split : List (EnergyParticle K) → List (List (EnergyParticle K)))
    (fr : KinFrame K) (ps : List (EnergyParticle K)) (numPart : Nat) : Outcome (Kinematics K) :=
  if numPart ≤ 1 then .ok ⟨0, 0, fun _ => 0⟩
  else if ps.length < numPart then .ub
  else
    let s := reduction split (kinTerm fr) (ps.take numPart)
    let e := s.1 / s.2.2.2
    let k := s.2.1 * (1 / 2 / s.2.2.2)
    .ok ⟨e - k, k, fun j => s.2.2.1 j / s.2.2.2⟩

end HBT.Model
