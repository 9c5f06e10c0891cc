import Mathlib.Data.Matrix.Mul
import Mathlib.Data.Real.Basic

/-! # The Cholesky factor, as `numpy`/`jax` document it -/

namespace Mrx.Spec
open Matrix

/-- `L = cholesky(A)`: lower triangular with positive diagonal, `L Lᵀ = A`. -/
structure IsCholesky {n : Nat} (A L : Matrix (Fin n) (Fin n) ℝ) : Prop where
  lower : ∀ i j, i < j → L i j = 0
  pos : ∀ i, 0 < L i i
  mul : L * Lᵀ = A

end Mrx.Spec
