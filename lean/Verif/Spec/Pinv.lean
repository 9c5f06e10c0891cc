import Mathlib.Data.Matrix.Mul
import Mathlib.Data.Real.Basic

/-! # Moore-Penrose pseudo-inverse of a real matrix, by the four Penrose equations -/

namespace Mrx.Spec
open Matrix

/-- `X` is the Moore-Penrose pseudo-inverse of `A`. -/
structure IsPinv {n m : Nat} (A : Matrix (Fin n) (Fin m) ℝ) (X : Matrix (Fin m) (Fin n) ℝ) : Prop where
  axa : A * X * A = A
  xax : X * A * X = X
  ax : (A * X)ᵀ = A * X
  xa : (X * A)ᵀ = X * A

end Mrx.Spec
