import Mathlib.Analysis.Calculus.Deriv.Basic

/-! # Partial derivatives of functions of three variables -/

namespace Mrx.Spec

/-- Coordinate number `dir` of a point. -/
def coord (x : ℝ × ℝ × ℝ) : Nat → ℝ
  | 0 => x.1
  | 1 => x.2.1
  | _ => x.2.2

/-- Restriction of `g` to the coordinate line through `x` in direction `dir`. -/
def line (g : ℝ × ℝ × ℝ → ℝ) (x : ℝ × ℝ × ℝ) : Nat → ℝ → ℝ
  | 0 => fun y => g (y, x.2.1, x.2.2)
  | 1 => fun y => g (x.1, y, x.2.2)
  | _ => fun y => g (x.1, x.2.1, y)

/-- `g` has partial derivative `v` in direction `dir` at `x`. -/
def HasPartial (g : ℝ × ℝ × ℝ → ℝ) (dir : Nat) (v : ℝ) (x : ℝ × ℝ × ℝ) : Prop :=
  HasDerivAt (line g x dir) v (coord x dir)

end Mrx.Spec
