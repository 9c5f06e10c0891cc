import Verif.Spec.Linear
import Mathlib.Analysis.Normed.Module.FiniteDimension
import Mathlib.Topology.MetricSpace.ProperSpace
import Mathlib.Topology.Instances.Matrix
import Mathlib.Analysis.Normed.Operator.Bilinear

/-! # Bounds for bilinear maps and quadratic forms in finite dimension -/

namespace Mrx
open Spec Matrix

theorem bilin_bound {a b c : Nat} (f : (Fin a → ℝ) → (Fin b → ℝ) → (Fin c → ℝ)) (h1 : ∀ (s : ℝ) w w' u, f (s • w + w') u = s • f w u + f w' u)
    (h2 : ∀ (s : ℝ) w u u', f w (s • u + u') = s • f w u + f w u') : ∃ C, 0 ≤ C ∧ ∀ x y, ‖f x y‖ ≤ C * ‖x‖ * ‖y‖ := by
  have z1 : ∀ u, f 0 u = 0 := fun u => by have := h1 1 0 0 u; simpa using this
  have z2 : ∀ w, f w 0 = 0 := fun w => by have := h2 1 w 0 0; simpa using this
  let g : (Fin a → ℝ) →ₗ[ℝ] (Fin b → ℝ) →ₗ[ℝ] (Fin c → ℝ) := LinearMap.mk₂ ℝ f
    (fun w w' u => by have := h1 1 w w' u; simpa using this)
    (fun s w u => by have := h1 s w 0 u; simpa [z1] using this)
    (fun w u u' => by have := h2 1 w u u'; simpa using this)
    (fun s w u => by have := h2 s w u 0; simpa [z2] using this)
  let g2 : (Fin a → ℝ) →ₗ[ℝ] (Fin b → ℝ) →L[ℝ] (Fin c → ℝ) := LinearMap.toContinuousLinearMap.toLinearMap ∘ₗ g
  let g3 : (Fin a → ℝ) →L[ℝ] (Fin b → ℝ) →L[ℝ] (Fin c → ℝ) := LinearMap.toContinuousLinearMap g2
  exact ⟨‖g3‖, g3.opNorm_nonneg, fun x y => g3.le_opNorm₂ x y⟩

theorem quad_upper {n : Nat} (M : Matrix (Fin n) (Fin n) ℝ) : ∃ C, 0 < C ∧ ∀ x, √(x ⬝ᵥ M *ᵥ x) ≤ C * ‖x‖ := by
  obtain ⟨c, hc, h⟩ := bilin_bound (c := 1) (fun x y _ => x ⬝ᵥ M *ᵥ y)
    (fun s w w' u => by funext i; simp [add_dotProduct, smul_dotProduct])
    (fun s w u u' => by funext i; simp [mulVec_add, mulVec_smul, dotProduct_add, dotProduct_smul])
  refine ⟨√ c + 1, by positivity, fun x => ?_⟩
  have e := h x x
  have e2 : x ⬝ᵥ M *ᵥ x ≤ c * ‖x‖ ^ 2 := by
    have : |x ⬝ᵥ M *ᵥ x| ≤ ‖(fun _ : Fin 1 => x ⬝ᵥ M *ᵥ x)‖ := norm_le_pi_norm (fun _ : Fin 1 => x ⬝ᵥ M *ᵥ x) 0
    have := (le_abs_self _).trans (this.trans e)
    nlinarith
  have e3 : √(x ⬝ᵥ M *ᵥ x) ≤ √ c * ‖x‖ := by
    refine (Real.sqrt_le_sqrt e2).trans ?_
    rw [Real.sqrt_mul hc, Real.sqrt_sq (norm_nonneg _)]
  have := norm_nonneg x
  nlinarith

theorem quad_lower {n : Nat} {M : Matrix (Fin n) (Fin n) ℝ} (hM : SPD M) : ∃ C, 0 < C ∧ ∀ x, ‖x‖ ≤ C * √(x ⬝ᵥ M *ᵥ x) := by
  have cont : Continuous (fun x : Fin n → ℝ => x ⬝ᵥ M *ᵥ x) := by fun_prop
  by_cases hne : (Metric.sphere (0 : Fin n → ℝ) 1).Nonempty
  · obtain ⟨x0, hx0, hmin⟩ := (isCompact_sphere (0 : Fin n → ℝ) 1).exists_isMinOn hne cont.continuousOn
    have nx0 : x0 ≠ 0 := by
      rintro rfl
      simp at hx0
    have m := hM.2 x0 nx0
    obtain ⟨μ, hμ⟩ : ∃ μ, μ = x0 ⬝ᵥ M *ᵥ x0 := ⟨_, rfl⟩
    rw [← hμ] at m
    refine ⟨(√ μ)⁻¹, by positivity, fun x => ?_⟩
    by_cases hx : x = 0
    · subst hx; simp
    have nx : 0 < ‖x‖ := norm_pos_iff.2 hx
    have k : μ ≤ (‖x‖⁻¹ • x) ⬝ᵥ M *ᵥ (‖x‖⁻¹ • x) := by
      rw [hμ]
      refine hmin (show ‖x‖⁻¹ • x ∈ Metric.sphere 0 1 from ?_)
      rw [mem_sphere_zero_iff_norm, norm_smul, norm_inv, norm_norm, inv_mul_cancel₀ nx.ne']
    rw [mulVec_smul, dotProduct_smul, smul_dotProduct, smul_eq_mul, smul_eq_mul] at k
    have k2 : μ * ‖x‖ ^ 2 ≤ x ⬝ᵥ M *ᵥ x := by
      have := mul_le_mul_of_nonneg_right k (sq_nonneg ‖x‖)
      have e : ‖x‖⁻¹ * (‖x‖⁻¹ * (x ⬝ᵥ M *ᵥ x)) * ‖x‖ ^ 2 = x ⬝ᵥ M *ᵥ x := by field_simp
      linarith
    have k3 := Real.sqrt_le_sqrt k2
    rw [Real.sqrt_mul m.le, Real.sqrt_sq nx.le] at k3
    rw [inv_mul_eq_div, le_div_iff₀ (by positivity)]
    linarith
  · refine ⟨1, one_pos, fun x => ?_⟩
    by_cases hx : x = 0
    · subst hx; simp
    · refine absurd ⟨‖x‖⁻¹ • x, ?_⟩ hne
      have nx : 0 < ‖x‖ := norm_pos_iff.2 hx
      rw [mem_sphere_zero_iff_norm, norm_smul, norm_inv, norm_norm, inv_mul_cancel₀ nx.ne']

end Mrx
