import Verif.Model.Outcome
import Mathlib.Algebra.Order.Floor.Ring
import Mathlib.Algebra.Order.Archimedean.Basic
import Mathlib.Data.Rat.Floor
/-!
# Functions that mix floating point numbers and integers, with rounding

`fl` is the rounding of the type in which the operation is done. It is applied after each operation and to each integer that is
converted.
-/
namespace HBT.Model

/-- `position_modulus(x, boxsize)`, src/mymath.h:169-175. -/
def positionModulusF (fl : ℚ → ℚ) (x boxsize : ℚ) : ℚ :=
  if 0 ≤ x ∧ x < boxsize then x
  else
    let y := fl (x / boxsize)
    fl (fl (y - ⌊y⌋) * boxsize)

/-- `NEAREST(x)`, src/config_parser.h:142, with `BoxHalf = BoxSize/2.` (src/config_parser.cpp:100). -/
def nearestF (fl : ℚ → ℚ) (boxsize x : ℚ) : ℚ :=
  let boxhalf := fl (boxsize / 2)
  if x > boxhalf then fl (x - boxsize)
  else if x < -boxhalf then fl (x + boxsize)
  else x

/-- `GetGrid(x, step, dim)`, src/mymath.cpp:7-13. The conversion to `int` is assumed not to overflow. -/
def getGridF (fl : ℚ → ℚ) (x step : ℚ) (dim : Int) : Int :=
  let i := ⌊fl (x / step)⌋
  let i := if i < 0 then 0 else i
  if i ≥ dim then dim - 1 else i

/-- `ceil(1.*InParticleSum/chunksize)`, src/mpi_wrapper.h:134-136 (and `ParticleCount`, 201-202). -/
def numLoopsF (fl : ℚ → ℚ) (sum chunksize : Nat) : Int := ⌈fl (fl (1 * fl sum) / fl chunksize)⌉

/-- The number of particles that `TruncateSource` keeps, src/subhalo_unbind.cpp:451-456, of `size` particles. The product is not
negative, so that the conversion to an integer is `floor`. -/
def nsourceF (fl : ℚ → ℚ) (factor : ℚ) (nbound size : Nat) : Nat :=
  let nsource := if nbound ≤ 1 then nbound else ⌊fl (fl nbound * factor)⌋.toNat
  if nsource > size then size else nsource

/-- The test for convergence, src/subhalo_unbind.cpp:395. -/
def convergedF (fl : ℚ → ℚ) (precision : ℚ) (nbound nlast : Nat) : Bool := decide (fl nbound ≥ fl (fl nlast * precision))

end HBT.Model
