import Verif.Model.Outcome
import Mathlib.Algebra.Order.Floor.Ring
import Mathlib.Algebra.Order.Field.Basic
/-!
# Model of `src/mymath.h` / `src/mymath.cpp` (arithmetic helpers)
-/
namespace HBT.Model

/-- Loop of `CompileOffsets`, src/mymath.h:37-41 (`offset` is the running value). -/
def compileOffsetsFrom (offset : Nat) : List Nat → List Nat × Nat
  | [] => ([], offset)
  | c :: cs =>
    let r := compileOffsetsFrom (offset + c) cs
    (offset :: r.1, r.2)

/-- `CompileOffsets(Counts, Offsets)`, src/mymath.h:32-43 (same loop as the
iterator version 45-56 and `compile_offset`, src/mymath.cpp:40-49).
Returns the filled `Offsets` and the returned total.
Simplification: counts are naturals, no overflow of `size_t` or of the narrower
element type of `Offsets`. -/
def compileOffsets (counts : List Nat) : List Nat × Nat :=
  compileOffsetsFrom 0 counts

/-- `AssignTasks(worker_id, nworkers, ntasks, task_begin, task_end)`,
src/mymath.cpp:215-227. Arguments are non-negative at every call site.
`nworkers = 0` divides by zero (undefined behaviour); the trailing `assert`
becomes `abort`. -/
def assignTasks (worker_id nworkers ntasks : Nat) : Outcome (Nat × Nat) :=
  if nworkers = 0 then .ub
  else
    let ntask_remainder := ntasks % nworkers
    let ntask_this := ntasks / nworkers
    let task_begin := ntask_this * worker_id + min ntask_remainder worker_id
    let ntask_this := if worker_id < ntask_remainder then ntask_this + 1 else ntask_this
    let task_end := ntask_this + task_begin
    if task_end ≤ ntasks then .ok (task_begin, task_end) else .abort

/-- Loop `for(;x>0;x--) if(N%x==0) break;` of `LargestRootFactor`,
src/mymath.cpp:197-198. -/
def largestRootFactorLoop (N : Nat) : Nat → Nat
  | 0 => 0
  | x + 1 => if N % (x + 1) = 0 then x + 1 else largestRootFactorLoop N x

/-- `LargestRootFactor(N, dim)`, src/mymath.cpp:193-200. The start value
`floor(pow(N,1./dim))` is computed in floating point; it is the parameter `root`. -/
def largestRootFactor (root : Nat → Nat → Nat) (N dim : Nat) : Nat :=
  largestRootFactorLoop N (root N dim)

/-- `ClosestFactors(N, dim)`, src/mymath.cpp:201-213. `N/=x` with `x=0` is
undefined behaviour. -/
def closestFactors (root : Nat → Nat → Nat) : Nat → Nat → Outcome (List Nat)
  | _, 0 => .ok []
  | N, dim + 1 =>
    let x := largestRootFactor root N (dim + 1)
    if x = 0 then .ub
    else do
      let r ← closestFactors root (N / x) dim
      .ok (x :: r)

section Field
variable {K : Type} [Field K] [LinearOrder K] [FloorRing K]

/-- `GetGrid(x, step, dim)`, src/mymath.cpp:7-13. Reals are exact; the
conversion of `floor(x/step)` to `int` is assumed not to overflow. -/
def getGrid (x step : K) (dim : Int) : Int :=
  let i := ⌊x / step⌋
  let i := if i < 0 then 0 else i
  if i ≥ dim then dim - 1 else i

/-- `AssignCell(Pos, step, dims)`, src/mymath.cpp:14-21. -/
def assignCell (pos step : Fin 3 → K) (dims : List Int) : Outcome Int := do
  let d0 ← Outcome.get dims 0
  let d1 ← Outcome.get dims 1
  let d2 ← Outcome.get dims 2
  let g0 := getGrid (pos 0) (step 0) d0
  let g1 := getGrid (pos 1) (step 1) d1
  let g2 := getGrid (pos 2) (step 2) d2
  .ok ((g0 * d1 + g1) * d2 + g2)

/-- `position_modulus(x, boxsize)`, src/mymath.h:169-175 (exact arithmetic). -/
def positionModulus (x boxsize : K) : K :=
  if 0 ≤ x ∧ x < boxsize then x
  else
    let y := x / boxsize
    (y - ⌊y⌋) * boxsize

/-- `NEAREST(x)`, src/config_parser.h:142, with `BoxHalf = BoxSize/2.`
(src/config_parser.cpp:100). -/
def nearest (boxsize x : K) : K :=
  let boxhalf := boxsize / 2
  if x > boxhalf then x - boxsize
  else if x < -boxhalf then x + boxsize
  else x

/-- Square of `PeriodicDistance(x, y)`, src/config_parser.h:143-156 (the final
`sqrt` is left out, reals are exact). -/
def periodicDistance2 (periodic : Bool) (boxsize : K) (x y : Fin 3 → K) : K :=
  let dx := fun i => if periodic then nearest boxsize (x i - y i) else x i - y i
  dx 0 * dx 0 + dx 1 * dx 1 + dx 2 * dx 2

end Field
end HBT.Model
