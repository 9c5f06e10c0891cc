import Mathlib.Data.Matrix.Mul
import Mathlib.Data.Matrix.Diagonal
import Mathlib.Data.Real.Basic

/-! # Symmetric eigenvalue problems, as `numpy`/`jax`/`scipy` document their solvers -/

namespace Mrx.Spec
open Matrix

/-- `w, V = eigh(A)`: orthonormal eigenvectors in the columns of `V`, eigenvalues in ascending order. -/
structure IsEigh {n : Nat} (A : Matrix (Fin n) (Fin n) ℝ) (w : Fin n → ℝ) (V : Matrix (Fin n) (Fin n) ℝ) : Prop where
  orth : Vᵀ * V = 1
  eig : A * V = V * diagonal w
  sorted : Monotone w

/-- `w, V = scipy.linalg.eigh(A, M)`: generalised eigenvectors, orthonormal for `M`, eigenvalues in ascending order. -/
structure IsGEigh {n : Nat} (A M : Matrix (Fin n) (Fin n) ℝ) (w : Fin n → ℝ) (V : Matrix (Fin n) (Fin n) ℝ) : Prop where
  orth : Vᵀ * M * V = 1
  eig : A * V = M * V * diagonal w
  sorted : Monotone w

end Mrx.Spec
