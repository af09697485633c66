import Verif.Model.Outcome
import Verif.Model.Average
/-!
# Model of the density-profile quantities of a subhalo

src/subhalo.cpp:221-335 (`AverageCoordinates`, `CalculateProfileProperties`) and
src/snapshot.cpp:239-336 (`SphericalOverdensitySize`, `SphericalOverdensitySize2`,
`HaloVirialFactors`). Exact arithmetic; `sqrt` and the cube root are parameters. The parallel loops
write disjoint elements and are modelled as maps.
-/
namespace HBT.Model
variable {K : Type} [Field K] [LinearOrder K]

/-- `std::sort` with `CompProfRadius`, src/subhalo.cpp:233-236 and 298: some arrangement of the
elements in which no radius is followed by a smaller one. -/
structure RadiusSort (sort : List (K × K) → List (K × K)) : Prop where
  perm : ∀ l, (sort l).Perm l
  sorted : ∀ l, (sort l).Pairwise (fun a b => a.1 ≤ b.1)

/-- `RadMassVel_t`, src/snapshot.h. src/snapshot.h:41-49. -/
structure ProfPoint (K : Type) where
  r : K
  m : K
  v : K

/-- The `m_cum` loop, src/subhalo.cpp:299-300. -/
def cumulate (acc : K) : List (K × K) → List (K × K)
  | [] => []
  | (r, m) :: rest => (r, acc + m) :: cumulate (acc + m) rest

/-- One pass of the loop src/subhalo.cpp:303-307. -/
def profPoint (soft : K) (p : K × K) : ProfPoint K :=
  let r := if p.1 < soft then soft else p.1
  ⟨r, p.2, p.2 / r⟩

/-- The profile, src/subhalo.cpp:286-309, from the distance and mass of each bound particle. -/
def profileOf (sort : List (K × K) → List (K × K)) (soft : K) (bodies : List (K × K)) :
    List (ProfPoint K) :=
  (cumulate 0 (sort bodies)).map (profPoint soft)

/-- `max_element` with `CompProfVel`, src/subhalo.cpp:237-240 and 310: the first of the largest. -/
def maxElement (best : ProfPoint K) : List (ProfPoint K) → ProfPoint K
  | [] => best
  | p :: rest => maxElement (if best.v < p.v then p else best) rest

/-- `RhoVirial`, src/snapshot.cpp:269. -/
def rhoVirial (factor hz g a : K) : K := factor * hz * hz / 2 / g * a * a * a

/-- `SphericalOverdensitySize` on a profile, src/snapshot.cpp:259-281, on the reversed list
(`rbegin` to `rend`). `old` is the content of `Mvir` and `Rvir` before the call. -/
def overdensityScan (cbrt : K → K) (rho : K) (old : K × K) : List (ProfPoint K) → K × K
  | [] => old
  | p :: rest =>
    if p.m > rho * p.r * p.r * p.r then (p.m, cbrt (p.m / rho))
    else overdensityScan cbrt rho old rest

/-- `SphericalOverdensitySize` on a profile, src/snapshot.cpp:259-281. -/
def overdensityProfile (cbrt : K → K) (rho : K) (old : K × K) (prof : List (ProfPoint K)) : K × K :=
  overdensityScan cbrt rho old prof.reverse

/-- The profile properties of a subhalo, src/subhalo.h:47-67. -/
structure ProfileProps (K : Type) where
  rmax : K
  vmax : K
  lastMaxVmax : K
  lastMaxSnap : Int
  r2sigma : K
  rhalf : K
  r200 : K
  m200 : K
deriving DecidableEq

/-- What the call reads besides the subhalo: softening, box, snapshot number and cosmology
(`HBTConfig`, `epoch`), and the mathematical functions. Part of `bodiesOf`, src/subhalo.cpp:289-294. -/
structure ProfileEnv (K : Type) where
  sort : List (K × K) → List (K × K)
  sqrt : K → K
  cbrt : K → K
  soft : K
  periodic : Bool
  boxsize : K
  g : K
  a : K
  hz : K
  snap : Int

/-- Distance and mass of each bound particle, src/subhalo.cpp:289-294. -/
def bodiesOf (env : ProfileEnv K) (cen : Fin 3 → K) (bound : List (Weighted K)) : List (K × K) :=
  bound.map (fun p => (env.sqrt (periodicDistance2 env.periodic env.boxsize cen p.2), p.1))

/-- The peak record, src/subhalo.cpp:320-324. -/
def recordPeak [DecidableLE K] (snap : Int) (vmax : K) (s : ProfileProps K) : ProfileProps K :=
  if vmax ≥ s.lastMaxVmax then { s with lastMaxSnap := snap, lastMaxVmax := vmax } else s

/-- `CalculateProfileProperties`, src/subhalo.cpp:242-335, with the critical overdensity of 200
(`virialF_c200`, src/snapshot.cpp:334). Reading particles or profile points that do not exist is
undefined. `(HBTInt)(Nbound*0.955)` is computed exactly. -/
def calculateProfile (env : ProfileEnv K) (cen : Fin 3 → K) (particles : List (Weighted K))
    (nbound : Nat) (s : ProfileProps K) : Outcome (ProfileProps K) :=
  if nbound ≤ 1 then
    .ok { s with rmax := 0, vmax := 0, r2sigma := 0, rhalf := 0, r200 := 0, m200 := 0 }
  else if particles.length < nbound then .ub
  else
    let prof := profileOf env.sort env.soft (bodiesOf env cen (particles.take nbound))
    match prof with
    | [] => .ub
    | p :: rest => do
      let mp := maxElement p rest
      let vmax := env.sqrt (mp.v * (env.g / env.a))
      let half ← Outcome.get prof (nbound / 2)
      let sig ← Outcome.get prof (nbound * 955 / 1000)
      let vir := overdensityProfile env.cbrt (rhoVirial 200 env.hz env.g env.a) (s.m200, s.r200) prof
      .ok (recordPeak env.snap vmax
        { s with rmax := mp.r, vmax := vmax, rhalf := half.r, r2sigma := sig.r,
                 m200 := vir.1, r200 := vir.2 })

/-- `RhoVirial` per particle, src/snapshot.cpp:250. -/
def rhoPerParticle (factor hz g mass a : K) : K := factor * hz * hz / 2 / g / mass * a * a * a

/-- The loop src/snapshot.cpp:251-255 on the reversed list: the value of `i` on leaving it. -/
def scanCount (rho : K) : List K → Nat
  | [] => 0
  | r :: rest =>
    if ((rest.length + 1 : Nat) : K) > rho * r * r * r then rest.length + 1 else scanCount rho rest

/-- `SphericalOverdensitySize` for particles of one mass, src/snapshot.cpp:239-258. -/
def overdensityConstant (cbrt : K → K) (rho mass : K) (rs : List K) : K × K :=
  let i := scanCount rho rs.reverse
  ((i : K) * mass, cbrt ((i : K) / rho))

/-- Radius guess, src/snapshot.cpp:298 and 319, for `n` particles. -/
def radiusGuess (cbrt : K → K) (factor hz g mass a : K) (n : Nat) : K :=
  cbrt (2 * g * (n : K) * mass / factor / hz / hz) / a

/-- `for(i=ndiv-1;i>=0;i--) if(RSorted[i]<rvir) break; ndiv=i+1`, src/snapshot.cpp:303-307. -/
def shrinkTo (rs : List K) (rvir : K) : Nat → Outcome Nat
  | 0 => .ok 0
  | i + 1 => do
    let r ← Outcome.get rs i
    if r < rvir then .ok (i + 1) else shrinkTo rs rvir i

/-- `for(i=ndiv;i<np;i++) if(RSorted[i]>=rvir) break; ndiv=i`, src/snapshot.cpp:311-315. -/
def growTo (rvir : K) (i : Nat) : List K → Nat
  | [] => i
  | r :: rest => if r ≥ rvir then i else growTo rvir (i + 1) rest

/-- The `while(true)` loop, src/snapshot.cpp:299-322, with at most `fuel` passes. -/
def overdensityLoop (guess : Nat → K) (tol : K) (rs : List K) :
    Nat → Nat → K → K → Outcome (Nat × K)
  | 0, _, _, _ => .diverge
  | fuel + 1, ndiv, rdiv, rvir => do
    let n ← if rdiv > rvir then shrinkTo rs rvir ndiv
      else if rdiv < rvir then .ok (growTo rvir ndiv (rs.drop ndiv))
      else .ok ndiv
    let rnew := guess n
    if n = 0 ∨ n = rs.length ∨ |(rnew - rvir) / rnew| < tol then .ok (n, rnew)
    else overdensityLoop guess tol rs fuel n rvir rnew

/-- `SphericalOverdensitySize2`, src/snapshot.cpp:282-326, giving the number of particles and the
radius. For an empty list `RSorted[ndiv-1]` is outside the array. -/
def overdensityIter (guess : Nat → K) (tol : K) (rs : List K) (fuel : Nat) : Outcome (Nat × K) :=
  if rs.length = 0 then .ub
  else do
    let rdiv ← Outcome.get rs (rs.length - 1)
    overdensityLoop guess tol rs fuel rs.length rdiv (guess rs.length)

end HBT.Model
