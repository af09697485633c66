import Mathlib.Algebra.Order.Field.Rat
import Mathlib.Algebra.Order.Field.Power
/-!
# Floating point numbers and their rounding

The format has `p` binary digits (24 for `float`, 53 for `double`). The range of exponents is not limited, so there is neither
overflow nor underflow.
-/
namespace HBT.Spec

/-- The numbers of the format. -/
def Rep (p : Nat) (x : ℚ) : Prop := ∃ m e : Int, |m| < 2 ^ p ∧ x = m * (2 : ℚ) ^ e

/-- `fl` rounds each number to a nearest number of the format. What it does between two equally near ones is left open. -/
def RoundsToNearest (p : Nat) (fl : ℚ → ℚ) : Prop := ∀ x, Rep p (fl x) ∧ ∀ y, Rep p y → |fl x - x| ≤ |y - x|

/-- `y` is `x`, which is not negative, up to `n` relative errors of at most `u`. -/
def Near (u : ℚ) (n : Nat) (x y : ℚ) : Prop := (1 - u) ^ n * x ≤ y ∧ y ≤ (1 + u) ^ n * x

end HBT.Spec
