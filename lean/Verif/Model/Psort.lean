import Verif.Model.Outcome
import Mathlib.Order.Defs.LinearOrder
/-!
# Model of `psort` (src/mymath.cpp:146-191)

The C++ code shifts the array pointer (`arr--`) and uses indices `1..numel`; `get1`, `set1` and
`swap1` are accesses with such an index. An access outside `1..numel` is undefined behaviour.
The value comparisons are those of a linear order (no NaN).
-/
namespace HBT.Model
variable {α : Type}

/-- `arr[i]` after `arr--`. Part of `swap1`, src/mymath.cpp:153. -/
def get1 (arr : List α) (i : Nat) : Outcome α := if i = 0 then .ub else Outcome.get arr (i-1)

/-- `arr[i]=a` after `arr--`. Part of `swap1`, src/mymath.cpp:153. -/
def set1 (arr : List α) (i : Nat) (a : α) : Outcome (List α) :=
  if i = 0 then .ub else Outcome.set arr (i-1) a

/-- Macro `SWAP(arr[i],arr[j])`, src/mymath.cpp:153. -/
def swap1 (arr : List α) (i j : Nat) : Outcome (List α) := do
  let temp ← get1 arr i
  let b ← get1 arr j
  let arr ← set1 arr i b
  set1 arr j temp

variable [LinearOrder α]

/-- `if (arr[i] > arr[j]) SWAP(arr[i],arr[j])`, src/mymath.cpp:168-176. -/
def order1 (arr : List α) (i j : Nat) : Outcome (List α) := do
  let x ← get1 arr i
  let y ← get1 arr j
  if x > y then swap1 arr i j else .ok arr

/-- `do i++; while (arr[i] < a);`, src/mymath.cpp:181. -/
def scanUp (arr : List α) (a : α) : Nat → Nat → Outcome Nat
  | 0, _ => .diverge
  | fuel + 1, i => do
    let x ← get1 arr (i+1)
    if x < a then scanUp arr a fuel (i+1) else .ok (i+1)

/-- `do j--; while (arr[j] > a);`, src/mymath.cpp:182. -/
def scanDown (arr : List α) (a : α) : Nat → Outcome Nat
  | 0 => .ub
  | j + 1 => do
    let x ← get1 arr j
    if x > a then scanDown arr a j else .ok j

/-- Inner `for(;;)` loop, src/mymath.cpp:180-185; returns the array and the final `i`, `j`. -/
def partLoop (a : α) : Nat → List α → Nat → Nat → Outcome (List α × Nat × Nat)
  | 0, _, _, _ => .diverge
  | fuel + 1, arr, i, j => do
    let i ← scanUp arr a (arr.length + 1) i
    let j ← scanDown arr a j
    if j < i then .ok (arr, i, j)
    else do
      let arr ← swap1 arr i j
      partLoop a fuel arr i j

/-- Outer `for(;;)` loop, src/mymath.cpp:158-189; returns the final array and the value. -/
def psortLoop (k : Nat) : Nat → List α → Nat → Nat → Outcome (List α × α)
  | 0, _, _, _ => .diverge
  | fuel + 1, arr, l, ir =>
    if ir ≤ l + 1 then do
      let arr ← if ir = l + 1 then do
          let x ← get1 arr ir
          let y ← get1 arr l
          if x < y then swap1 arr l ir else .ok arr
        else .ok arr
      let v ← get1 arr k
      .ok (arr, v)
    else do
      let mid := (l + ir) / 2
      let arr ← swap1 arr mid (l+1)
      let arr ← order1 arr (l+1) ir
      let arr ← order1 arr l ir
      let arr ← order1 arr (l+1) l
      let a ← get1 arr l
      let (arr, i, j) ← partLoop a (arr.length + 1) arr (l+1) ir
      let b ← get1 arr j
      let arr ← set1 arr l b
      let arr ← set1 arr j a
      let ir := if j ≥ k then j - 1 else ir
      let l := if j ≤ k then i else l
      psortLoop k fuel arr l ir

/-- `psort(k, numel, arr)`, src/mymath.cpp:146-191, with `numel = arr.length`. -/
def psort (k : Nat) (arr : List α) : Outcome (List α × α) :=
  psortLoop k (arr.length + 1) arr 1 arr.length

end HBT.Model
