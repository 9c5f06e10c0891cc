import Mathlib.Data.Matrix.Mul
import Mathlib.Data.Real.Basic

/-! # Symmetric positive (semi-)definite real matrices, in the elementary form -/

namespace Mrx.Spec
open Matrix

/-- Symmetric positive definite. -/
def SPD {n : Nat} (A : Matrix (Fin n) (Fin n) ℝ) : Prop := Aᵀ = A ∧ ∀ x, x ≠ 0 → 0 < x ⬝ᵥ A *ᵥ x

/-- Symmetric positive semidefinite. -/
def SPSD {n : Nat} (A : Matrix (Fin n) (Fin n) ℝ) : Prop := Aᵀ = A ∧ ∀ x, 0 ≤ x ⬝ᵥ A *ᵥ x

end Mrx.Spec
