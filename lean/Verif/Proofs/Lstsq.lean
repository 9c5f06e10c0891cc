import Verif.Spec.Lstsq
import Verif.Proofs.Pinv

/-! # Existence of the least-squares solution -/

namespace Mrx
open Matrix Spec

theorem misfit_split {m n : Nat} (A : Matrix (Fin m) (Fin n) ℝ) (b : Fin m → ℝ) (x y : Fin n → ℝ) (h : Aᵀ *ᵥ (A *ᵥ x - b) = 0) :
    misfit A b y = misfit A b x + (A *ᵥ (y - x)) ⬝ᵥ (A *ᵥ (y - x)) := by
  have e : A *ᵥ y - b = (A *ᵥ x - b) + A *ᵥ (y - x) := by rw [mulVec_sub]; abel
  have z : (A *ᵥ x - b) ⬝ᵥ (A *ᵥ (y - x)) = 0 := by
    rw [dotProduct_mulVec, ← mulVec_transpose, h, zero_dotProduct]
  unfold misfit
  rw [e, add_dotProduct, dotProduct_add, dotProduct_add, z, dotProduct_comm (A *ᵥ (y - x)) (A *ᵥ x - b), z]
  ring

theorem lstsq_of_pinv {m n : Nat} {A : Matrix (Fin m) (Fin n) ℝ} {X : Matrix (Fin n) (Fin m) ℝ} (h : IsPinv A X) (b : Fin m → ℝ) :
    IsLstsq A b (X *ᵥ b) := by
  have g : Aᵀ *ᵥ (A *ᵥ (X *ᵥ b) - b) = 0 := by
    rw [mulVec_sub, mulVec_mulVec, mulVec_mulVec]
    have : Aᵀ * A * X = Aᵀ := by
      rw [Matrix.mul_assoc, ← h.ax, ← transpose_mul, h.axa]
    rw [this, sub_self]
  refine ⟨fun y => ?_, fun y hy => ?_⟩
  · rw [misfit_split A b _ y g]
    have := dotProduct_self_star_nonneg (A *ᵥ (y - X *ᵥ b))
    simp only [star_trivial] at this
    linarith
  · rw [misfit_split A b _ y g] at hy
    have z0 : (A *ᵥ (y - X *ᵥ b)) ⬝ᵥ (A *ᵥ (y - X *ᵥ b)) = 0 := by
      have := dotProduct_self_star_nonneg (A *ᵥ (y - X *ᵥ b))
      simp only [star_trivial] at this
      linarith
    have z : A *ᵥ (y - X *ᵥ b) = 0 := dotProduct_self_eq_zero.mp z0
    obtain ⟨d, hd⟩ : ∃ d, d = y - X *ᵥ b := ⟨_, rfl⟩
    rw [← hd] at z
    have ey : y = X *ᵥ b + d := by rw [hd]; abel
    have o : (X *ᵥ b) ⬝ᵥ d = 0 := by
      have e1 : X *ᵥ b = (X * A)ᵀ *ᵥ (X *ᵥ b) := by rw [h.xa, mulVec_mulVec, h.xax]
      rw [e1, mulVec_transpose, ← dotProduct_mulVec, ← mulVec_mulVec, z, mulVec_zero, dotProduct_zero]
    rw [ey, add_dotProduct, dotProduct_add, dotProduct_add, o, dotProduct_comm d, o]
    have := dotProduct_self_star_nonneg d
    simp only [star_trivial] at this
    linarith

/-- There is a least-squares solver. -/
theorem lstsq_exists : ∃ l : ∀ m n : Nat, Matrix (Fin m) (Fin n) ℝ → (Fin m → ℝ) → Fin n → ℝ, ∀ m n A b, IsLstsq A b (l m n A b) := by
  refine ⟨fun m n A b => (pinv_exists A).choose *ᵥ b, fun m n A b => lstsq_of_pinv (pinv_exists A).choose_spec b⟩

end Mrx
