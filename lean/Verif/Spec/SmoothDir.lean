import Mathlib.Analysis.Calculus.Deriv.Basic
import Mathlib.Analysis.SpecialFunctions.Trigonometric.Basic
import Mathlib.Data.Nat.Factorial.Basic
import Mathlib.Data.Fin.VecNotation

/-!
# Specification: smooth functions of one logical coordinate and the error of full order

`D 0, D 1, ...` are a function and its derivatives. `SmoothDir ty p D M`: the function has `p + 1` derivatives, the last one bounded by `M`, on the unit interval (clamped), or on the line and
periodic (periodic); in a constant direction it is constant. `fullOrder n p ty M`: the error `M (2 H)^(p+1) / (p+1)!`, where `H` is the width of a spline, `p + 1` elements.
-/

namespace Mrx.Spec

/-- `D (k+1)` is the derivative of `D k` on `S`, for `k ≤ p`. -/
def Jets (S : Set ℝ) (p : Nat) (D : Nat → ℝ → ℝ) : Prop := ∀ k ≤ p, ∀ x ∈ S, HasDerivWithinAt (D k) (D (k + 1) x) S x

def SmoothDir (ty : String) (p : Nat) (D : Nat → ℝ → ℝ) (M : ℝ) : Prop :=
  (ty = "clamped" ∧ Jets (Set.Icc 0 1) p D ∧ ∀ x, 0 ≤ x → x ≤ 1 → |D (p + 1) x| ≤ M) ∨
  (ty = "periodic" ∧ Jets Set.univ p D ∧ (∀ x, D 0 (x + 1) = D 0 x) ∧ ∀ x, |D (p + 1) x| ≤ M) ∨
  (ty = "constant" ∧ Jets Set.univ p D ∧ 0 ≤ M ∧ ∀ x, D 0 x = D 0 0)

noncomputable def fullOrder (n p : Nat) (ty : String) (M : ℝ) : ℝ :=
  if ty = "clamped" then M * (2 * (((p : ℝ) + 1) / ((n : ℝ) - p))) ^ (p + 1) / (p + 1).factorial
  else if ty = "periodic" then M * (2 * (((p : ℝ) + 1) / n)) ^ (p + 1) / (p + 1).factorial else 0

/-- The error of the first derivative: of order `p`. -/
noncomputable def slopeOrder (n p : Nat) (ty : String) (M : ℝ) : ℝ :=
  if ty = "clamped" then 2 * (p * ((n : ℝ) - p)) * fullOrder n p ty M else if ty = "periodic" then 2 * n * fullOrder n p ty M else 0

/-- `α cos 2πx + β sin 2πx`. -/
def FirstHarmonic (t : ℝ → ℝ) : Prop := ∃ α β : ℝ, ∀ x, t x = α * Real.cos (2 * Real.pi * x) + β * Real.sin (2 * Real.pi * x)

/-- A product of functions of the three coordinates, with bounds on the functions (`G`, `T`, `W`) and on their last derivatives (`Mg`, `Mt`, `Mw`). -/
structure Term where
  g : Nat → ℝ → ℝ
  t : Nat → ℝ → ℝ
  w : Nat → ℝ → ℝ
  Mg : ℝ
  Mt : ℝ
  Mw : ℝ
  G : ℝ
  T : ℝ
  W : ℝ

namespace Term
variable (a : Term) (ns ps : Nat × Nat × Nat) (types : String × String × String)

def value (x : ℝ × ℝ × ℝ) : ℝ := a.g 0 x.1 * a.t 0 x.2.1 * a.w 0 x.2.2

/-- The bounds hold, and the product satisfies the conditions of the sequence: with a Dirichlet condition it vanishes at the (radial) boundary; on a polar sequence it is differentiable on the disc,
i.e. near the axis it is constant to first order, a multiple of `cos 2πθ` and `sin 2πθ`, or vanishes to second order. -/
def Ok (polar dirichlet : Bool) : Prop :=
  SmoothDir types.1 ps.1 a.g a.Mg ∧ SmoothDir types.2.1 ps.2.1 a.t a.Mt ∧ SmoothDir types.2.2 ps.2.2 a.w a.Mw ∧
  (∀ x, 0 ≤ x → x ≤ 1 → |a.g 0 x| ≤ a.G ∧ |a.t 0 x| ≤ a.T ∧ |a.w 0 x| ≤ a.W) ∧
  (polar = true → (a.g 1 0 = 0 ∧ ∀ x, a.t 0 x = a.t 0 0) ∨ (a.g 0 0 = 0 ∧ FirstHarmonic (a.t 0)) ∨ (a.g 0 0 = 0 ∧ a.g 1 0 = 0)) ∧
  (dirichlet = true → types.1 = "clamped" ∧ a.g 0 1 = 0 ∧ (polar = false → a.g 0 0 = 0))

noncomputable def error : ℝ :=
  (a.G + fullOrder ns.1 ps.1 types.1 a.Mg) * (a.T + fullOrder ns.2.1 ps.2.1 types.2.1 a.Mt) * (a.W + fullOrder ns.2.2 ps.2.2 types.2.2 a.Mw) - a.G * a.T * a.W

end Term

/-- With bounds on the first derivatives. -/
structure GradTerm extends Term where
  G1 : ℝ
  T1 : ℝ
  W1 : ℝ

namespace GradTerm
variable (a : GradTerm) (ns ps : Nat × Nat × Nat) (types : String × String × String)

/-- The partial derivatives. -/
def grad (x : ℝ × ℝ × ℝ) : Fin 3 → ℝ := ![a.g 1 x.1 * a.t 0 x.2.1 * a.w 0 x.2.2, a.g 0 x.1 * a.t 1 x.2.1 * a.w 0 x.2.2, a.g 0 x.1 * a.t 0 x.2.1 * a.w 1 x.2.2]

def Ok (polar dirichlet : Bool) : Prop :=
  a.toTerm.Ok ps types polar dirichlet ∧ ∀ x, 0 ≤ x → x ≤ 1 → |a.g 1 x| ≤ a.G1 ∧ |a.t 1 x| ≤ a.T1 ∧ |a.w 1 x| ≤ a.W1

/-- The errors of the partial derivatives, all of order `p`; on a polar sequence that of the poloidal derivative is relative to the radius. -/
noncomputable def gradError (polar : Bool) : Fin 3 → ℝ :=
  ![(a.G1 + slopeOrder ns.1 ps.1 types.1 a.Mg) * (a.T + fullOrder ns.2.1 ps.2.1 types.2.1 a.Mt) * (a.W + fullOrder ns.2.2 ps.2.2 types.2.2 a.Mw) - a.G1 * a.T * a.W,
    if polar then (a.G1 + slopeOrder ns.1 ps.1 types.1 a.Mg) * (a.T1 + slopeOrder ns.2.1 ps.2.1 types.2.1 a.Mt) * (a.W + fullOrder ns.2.2 ps.2.2 types.2.2 a.Mw) - a.G1 * a.T1 * a.W
    else (a.G + fullOrder ns.1 ps.1 types.1 a.Mg) * (a.T1 + slopeOrder ns.2.1 ps.2.1 types.2.1 a.Mt) * (a.W + fullOrder ns.2.2 ps.2.2 types.2.2 a.Mw) - a.G * a.T1 * a.W,
    (a.G + fullOrder ns.1 ps.1 types.1 a.Mg) * (a.T + fullOrder ns.2.1 ps.2.1 types.2.1 a.Mt) * (a.W1 + slopeOrder ns.2.2 ps.2.2 types.2.2 a.Mw) - a.G * a.T * a.W1]

end GradTerm

/-- On a polar sequence the poloidal derivative is measured relative to the radius. -/
noncomputable def axisScale (polar : Bool) (x : ℝ × ℝ × ℝ) (c : Fin 3) : ℝ := if polar = true ∧ c = 1 then x.1 else 1

end Mrx.Spec
