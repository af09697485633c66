import Verif.Model.MyMath
/-!
# Model of the mass-weighted averages, src/snapshot.cpp:72-137 and 171-237

Exact arithmetic. A particle is its mass with a position or velocity. The same loops are used for
particle arrays (`AveragePosition(HBTxyz&, const Particle_t[], HBTInt)`) and for index arrays
(`ParticleSnapshot_t::AveragePosition`, which returns no mass).
-/
namespace HBT.Model
variable {K : Type} [Field K] [LinearOrder K]

/-- A mass and a vector. Part of `addPosition`, src/snapshot.cpp:190-199. -/
abbrev Weighted (K : Type) := K × (Fin 3 → K)

/-- One pass of the summation loop, src/snapshot.cpp:190-199: `acc` holds `msum` and `sx`. -/
def addPosition (periodic : Bool) (boxsize : K) (origin : Fin 3 → K) (acc p : Weighted K) : Weighted K :=
  (acc.1 + p.1, fun j =>
    if periodic then acc.2 j + nearest boxsize (p.2 j - origin j) * p.1
    else acc.2 j + p.2 j * p.1)

/-- `AveragePosition`, src/snapshot.cpp:171-208: `com` is the content of `CoM` before the call.
Returns the total mass and the new `CoM`. With a total mass of zero the division gives NaN in the
code and 0 in the model. -/
def averagePosition (periodic : Bool) (boxsize : K) (com : Fin 3 → K) : List (Weighted K) → Weighted K
  | [] => (0, com)
  | [p] => p
  | p :: q :: ps =>
    let s := (p :: q :: ps).foldl (addPosition periodic boxsize p.2) (0, fun _ => 0)
    (s.1, fun j => if periodic then s.2 j / s.1 + p.2 j else s.2 j / s.1)

/-- One pass of the summation loop, src/snapshot.cpp:224-230. -/
def addVelocity (acc p : Weighted K) : Weighted K :=
  (acc.1 + p.1, fun j => acc.2 j + p.2 j * p.1)

/-- `AverageVelocity`, src/snapshot.cpp:209-237. -/
def averageVelocity (cov : Fin 3 → K) : List (Weighted K) → Weighted K
  | [] => (0, cov)
  | [p] => p
  | p :: q :: ps =>
    let s := (p :: q :: ps).foldl addVelocity (0, fun _ => 0)
    (s.1, fun j => s.2 j / s.1)

end HBT.Model
