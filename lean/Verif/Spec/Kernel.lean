import Mathlib.Analysis.Real.Pi.Bounds
/-!
# Specification of the smoothing kernel

The cubic spline kernel of Monaghan & Lattanzio (1985) with support radius `h`, which integrates to 1.
-/
namespace HBT.Spec

/-- The cubic spline kernel `W(r, h)`. -/
noncomputable def cubicSpline (h r : ℝ) : ℝ :=
  8 / (Real.pi * h ^ 3) * (if r / h < 1 / 2 then 1 - 6 * (r / h) ^ 2 + 6 * (r / h) ^ 3 else 2 * (1 - r / h) ^ 3)

end HBT.Spec
