import Verif.Spec.Pinv
import Verif.Proofs.Linear
import Mathlib.Analysis.Matrix.Spectrum

/-! # Existence and uniqueness of the pseudo-inverse -/

namespace Mrx
open Matrix Spec

theorem mul_transpose_self_eq_zero {n m : Nat} {B : Matrix (Fin n) (Fin m) ℝ} (h : Bᵀ * B = 0) : B = 0 := by
  ext i j
  have := congrFun (congrFun h j) j
  simp only [mul_apply, transpose_apply, Matrix.zero_apply] at this
  have h2 := (Finset.sum_eq_zero_iff_of_nonneg fun k _ => mul_self_nonneg (B k j)).mp this i (Finset.mem_univ _)
  simpa using h2

/-- A symmetric matrix has a symmetric pseudo-inverse commuting with it. -/
theorem pinv_sym {n : Nat} {B : Matrix (Fin n) (Fin n) ℝ} (hB : Bᵀ = B) :
    ∃ X, Xᵀ = X ∧ B * X = X * B ∧ B * X * B = B ∧ X * B * X = X := by
  have hH : B.IsHermitian := by rw [IsHermitian, conjTranspose_eq_transpose_of_trivial]; exact hB
  set U : Matrix (Fin n) (Fin n) ℝ := (hH.eigenvectorUnitary : Matrix (Fin n) (Fin n) ℝ) with hU
  have hUU : Uᵀ * U = 1 := by
    have := Unitary.coe_star_mul_self hH.eigenvectorUnitary
    rwa [star_eq_conjTranspose, conjTranspose_eq_transpose_of_trivial] at this
  have hs : B = U * diagonal hH.eigenvalues * Uᵀ := by
    have h1 := hH.spectral_theorem
    have h2 : (diagonal (RCLike.ofReal ∘ hH.eigenvalues) : Matrix (Fin n) (Fin n) ℝ) = diagonal hH.eigenvalues := by
      congr 1
    rw [h2, Unitary.conjStarAlgAut_apply, star_eq_conjTranspose, conjTranspose_eq_transpose_of_trivial] at h1
    exact h1
  set l := hH.eigenvalues
  have key : ∀ a b : Fin n → ℝ, U * diagonal a * Uᵀ * (U * diagonal b * Uᵀ) = U * diagonal (fun i => a i * b i) * Uᵀ := by
    intro a b
    rw [show U * diagonal a * Uᵀ * (U * diagonal b * Uᵀ) = U * diagonal a * (Uᵀ * U) * diagonal b * Uᵀ by
      simp only [Matrix.mul_assoc], hUU, Matrix.mul_one, Matrix.mul_assoc U, diagonal_mul_diagonal]
  refine ⟨U * diagonal (fun i => (l i)⁻¹) * Uᵀ, ?_, ?_, ?_, ?_⟩
  · rw [transpose_mul, transpose_mul, transpose_transpose, diagonal_transpose, Matrix.mul_assoc]
  · rw [hs, key, key]; congr 2; congr 1; funext i; ring
  · rw [hs, key, key]; congr 2; congr 1; funext i
    by_cases h : l i = 0
    · simp [h]
    · field_simp
  · rw [hs, key, key]; congr 2; congr 1; funext i
    by_cases h : l i = 0
    · simp [h]
    · field_simp

/-- Every real matrix has a pseudo-inverse. -/
theorem pinv_exists {n m : Nat} (A : Matrix (Fin n) (Fin m) ℝ) : ∃ X, IsPinv A X := by
  have hB : (Aᵀ * A)ᵀ = Aᵀ * A := by rw [transpose_mul, transpose_transpose]
  obtain ⟨Y, hY, hc, h1, h2⟩ := pinv_sym hB
  set B := Aᵀ * A
  have hA : A * (Y * B) = A := by
    have h0 : A * (1 - Y * B) = 0 := by
      apply mul_transpose_self_eq_zero
      rw [transpose_mul, transpose_sub, transpose_one, transpose_mul, hY, hB]
      have : (1 - B * Y) * Aᵀ * (A * (1 - Y * B)) = (1 - B * Y) * (B * (1 - Y * B)) := by
        simp only [B, Matrix.mul_assoc]
      rw [this, Matrix.mul_sub, Matrix.mul_one, ← Matrix.mul_assoc, h1, sub_self, Matrix.mul_zero]
    rw [Matrix.mul_sub, Matrix.mul_one, sub_eq_zero] at h0
    exact h0.symm
  refine ⟨Y * Aᵀ, ?_, ?_, ?_, ?_⟩
  · rw [Matrix.mul_assoc, Matrix.mul_assoc Y]; exact hA
  · rw [Matrix.mul_assoc Y, show Y * (Aᵀ * A) * (Y * Aᵀ) = Y * B * Y * Aᵀ by simp only [B, Matrix.mul_assoc], h2]
  · rw [← Matrix.mul_assoc, transpose_mul, transpose_mul, transpose_transpose, hY, Matrix.mul_assoc]
  · rw [Matrix.mul_assoc, transpose_mul, hB, hY, hc]

/-- It is unique. -/
theorem pinv_unique {n m : Nat} {A : Matrix (Fin n) (Fin m) ℝ} {X Y : Matrix (Fin m) (Fin n) ℝ} (hX : IsPinv A X) (hY : IsPinv A Y) :
    X = Y := by
  have e1 : A * X = A * Y := by
    calc A * X = (A * X)ᵀ := hX.ax.symm
      _ = (A * Y * A * X)ᵀ := by rw [hY.axa]
      _ = (A * X)ᵀ * (A * Y)ᵀ := by rw [← transpose_mul]; simp only [Matrix.mul_assoc]
      _ = A * X * (A * Y) := by rw [hX.ax, hY.ax]
      _ = A * X * A * Y := by simp only [Matrix.mul_assoc]
      _ = A * Y := by rw [hX.axa]
  have e2 : X * A = Y * A := by
    calc X * A = (X * A)ᵀ := hX.xa.symm
      _ = (X * (A * Y * A))ᵀ := by rw [hY.axa]
      _ = (Y * A)ᵀ * (X * A)ᵀ := by rw [← transpose_mul]; simp only [Matrix.mul_assoc]
      _ = Y * A * (X * A) := by rw [hX.xa, hY.xa]
      _ = Y * (A * X * A) := by simp only [Matrix.mul_assoc]
      _ = Y * A := by rw [hX.axa]
  calc X = X * A * X := hX.xax.symm
    _ = Y * A * X := by rw [e2]
    _ = Y * (A * X) := by rw [Matrix.mul_assoc]
    _ = Y * A * Y := by rw [e1, Matrix.mul_assoc]
    _ = Y := hY.xax

end Mrx
