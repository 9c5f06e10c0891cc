import Mathlib.Data.Real.Basic
import Mathlib.Algebra.Order.Group.Abs
import Mathlib.Data.Nat.Cast.Basic

/-!
# Specification: resolution of a one-dimensional basis

`NearDir ty h x y`: `x` and `y` are at most `h` apart, on the circle for a periodic direction.
`reach n p ty`: half the width of the support of a spline, in units of the logical interval: `p + 1` half
elements (the whole interval for the constant basis, which has no resolution).
-/

namespace Mrx.Spec

def NearDir (ty : String) (h x y : ℝ) : Prop :=
  (ty = "periodic" ∧ ∃ k : ℤ, |x - y - k| ≤ h) ∨ (ty ≠ "periodic" ∧ |x - y| ≤ h)

noncomputable def reach (n p : Nat) (ty : String) : ℝ :=
  if ty = "clamped" then ((p : ℝ) + 1) / (2 * ((n : ℝ) - p))
  else if ty = "periodic" then ((p : ℝ) + 1) / (2 * n) else 1

end Mrx.Spec
