import Mathlib.Algebra.Polynomial.Derivative
import Mathlib.Algebra.Polynomial.Eval.Degree
import Mathlib.Data.Real.Basic

/-!
# Specification: the space of splines of maximal smoothness on a uniform grid

Independent of the model of the code and of B-splines: a spline is a function on `[0,1]` that is a
polynomial of degree at most `p` on each of `M` equal elements, and whose pieces have equal
derivatives of orders `0, ..., p-1` at the interior breaks.
-/

namespace Mrx.Spec
open Polynomial

/-- The pieces `P 0, ..., P (M-1)` have degree at most `p` and describe `f` on `[0,1)`. -/
structure PiecesOf (p M : Nat) (f : ℝ → ℝ) (P : Nat → ℝ[X]) : Prop where
  degree : ∀ j < M, (P j).natDegree ≤ p
  inside : ∀ j < M, ∀ x : ℝ, (j : ℝ) / M ≤ x → x < ((j : ℝ) + 1) / M → f x = (P j).eval x

/-- The derivatives of orders `< p` of `P` at `a` and of `Q` at `b` are equal. -/
def JoinedAt (p : Nat) (P : ℝ[X]) (a : ℝ) (Q : ℝ[X]) (b : ℝ) : Prop :=
  ∀ k < p, (derivative^[k] P).eval a = (derivative^[k] Q).eval b

/-- Adjacent pieces have equal derivatives of orders `< p` at the interior breaks. -/
def Smooth (p M : Nat) (P : Nat → ℝ[X]) : Prop :=
  ∀ j, j + 1 < M → JoinedAt p (P j) (((j : ℝ) + 1) / M) (P (j + 1)) (((j : ℝ) + 1) / M)

/-- Splines of degree `p` with `p - 1` continuous derivatives on `M` equal elements of `[0,1)`. -/
def IsSplineInside (p M : Nat) (f : ℝ → ℝ) : Prop :=
  ∃ P : Nat → ℝ[X], PiecesOf p M f P ∧ Smooth p M P

/-- The same on the closed interval `[0,1]`. -/
def IsSpline (p M : Nat) (f : ℝ → ℝ) : Prop :=
  ∃ P : Nat → ℝ[X], PiecesOf p M f P ∧ Smooth p M P ∧ f 1 = (P (M - 1)).eval 1

/-- The same, and also joined across the seam `0 ~ 1`. -/
def IsPeriodicSpline (p M : Nat) (f : ℝ → ℝ) : Prop :=
  ∃ P : Nat → ℝ[X], PiecesOf p M f P ∧ Smooth p M P ∧ f 1 = (P (M - 1)).eval 1 ∧
    JoinedAt p (P (M - 1)) 1 (P 0) 0

/-- The periodic splines on the half-open interval `[0,1)`. -/
def IsPeriodicSplineInside (p M : Nat) (f : ℝ → ℝ) : Prop :=
  ∃ P : Nat → ℝ[X], PiecesOf p M f P ∧ Smooth p M P ∧ JoinedAt p (P (M - 1)) 1 (P 0) 0

end Mrx.Spec
