import Mathlib.Data.Matrix.Mul
import Mathlib.Data.Real.Basic

/-! # Least squares: what `jnp.linalg.lstsq` is documented to return -/

namespace Mrx.Spec
open Matrix

/-- The squared misfit `‖A x - b‖²`. -/
def misfit {m n : Nat} (A : Matrix (Fin m) (Fin n) ℝ) (b : Fin m → ℝ) (x : Fin n → ℝ) : ℝ := (A *ᵥ x - b) ⬝ᵥ (A *ᵥ x - b)

/-- `x` is the least-squares solution of `A x ≈ b` of minimal norm. -/
structure IsLstsq {m n : Nat} (A : Matrix (Fin m) (Fin n) ℝ) (b : Fin m → ℝ) (x : Fin n → ℝ) : Prop where
  min : ∀ y, misfit A b x ≤ misfit A b y
  short : ∀ y, misfit A b y ≤ misfit A b x → x ⬝ᵥ x ≤ y ⬝ᵥ y

end Mrx.Spec
