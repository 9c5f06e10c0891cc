import Verif.Proofs.Cohomology

/-! # Dimensions of the kernels and ranges of the strong operators -/

set_option linter.unusedSectionVars false
set_option linter.unusedSimpArgs false

namespace Mrx
open Finset Jax Spec Matrix Quad Props Module

/-! ## Counting -/

section count
variable {V W U T : Type} [AddCommGroup V] [Module ℝ V] [AddCommGroup W] [Module ℝ W] [FiniteDimensional ℝ W]
  [AddCommGroup U] [Module ℝ U] [AddCommGroup T] [Module ℝ T]

theorem finrank_sub_of_le {R K : Submodule ℝ W} (h : R ≤ K) : finrank ℝ (R.comap K.subtype) = finrank ℝ R :=
  (Submodule.comapSubtypeEquivOfLe h).finrank_eq

/-- Closed forms modulo exact forms, measured by the functionals `Φ`. -/
theorem finrank_ker_of (A : V →ₗ[ℝ] W) (B : W →ₗ[ℝ] U) (Φ : W →ₗ[ℝ] T) (h0 : ∀ x, B (A x) = 0) (h1 : ∀ x, Φ (A x) = 0)
    (h2 : ∀ w, B w = 0 → Φ w = 0 → ∃ x, A x = w) (h3 : ∀ t, ∃ w, B w = 0 ∧ Φ w = t) :
    finrank ℝ (LinearMap.ker B) = finrank ℝ (LinearMap.range A) + finrank ℝ T := by
  have hle : LinearMap.range A ≤ LinearMap.ker B := by
    rintro _ ⟨x, rfl⟩; exact h0 x
  have hk : LinearMap.ker (Φ.domRestrict (LinearMap.ker B)) = (LinearMap.range A).comap (LinearMap.ker B).subtype := by
    ext ⟨w, hw⟩
    simp only [LinearMap.mem_ker, LinearMap.domRestrict_apply, Submodule.mem_comap, Submodule.subtype_apply, LinearMap.mem_range]
    constructor
    · intro h; exact h2 w hw h
    · rintro ⟨x, rfl⟩; exact h1 x
  have hr : LinearMap.range (Φ.domRestrict (LinearMap.ker B)) = ⊤ := by
    rw [LinearMap.range_eq_top]
    intro t
    obtain ⟨w, hw, e⟩ := h3 t
    exact ⟨⟨w, hw⟩, e⟩
  have := LinearMap.finrank_range_add_finrank_ker (Φ.domRestrict (LinearMap.ker B))
  rw [hk, hr, finrank_top, finrank_sub_of_le hle] at this
  omega

/-- Harmonic fields represent closed modulo exact. -/
theorem finrank_harmonic [FiniteDimensional ℝ V] (A : V →ₗ[ℝ] W) (B : W →ₗ[ℝ] U) (δ : W →ₗ[ℝ] V) (h0 : ∀ x, B (A x) = 0)
    (h1 : ∀ x, δ (A x) = 0 → A x = 0) (h2 : finrank ℝ (LinearMap.range δ) = finrank ℝ (LinearMap.range A)) :
    finrank ℝ (LinearMap.ker B) = finrank ℝ (LinearMap.range A) + finrank ℝ ↥(LinearMap.ker B ⊓ LinearMap.ker δ) := by
  have hk : LinearMap.ker (δ.domRestrict (LinearMap.ker B)) = (LinearMap.ker B ⊓ LinearMap.ker δ).comap (LinearMap.ker B).subtype := by
    ext ⟨w, hw⟩
    have := LinearMap.mem_ker.mp hw
    simp [this]
  have e := LinearMap.finrank_range_add_finrank_ker (δ.domRestrict (LinearMap.ker B))
  rw [hk, finrank_sub_of_le inf_le_left] at e
  have u : LinearMap.range (δ.domRestrict (LinearMap.ker B)) ≤ LinearMap.range δ := by
    rintro _ ⟨⟨w, hw⟩, rfl⟩; exact ⟨w, rfl⟩
  have l : LinearMap.range (δ.comp A) ≤ LinearMap.range (δ.domRestrict (LinearMap.ker B)) := by
    rintro _ ⟨x, rfl⟩; exact ⟨⟨A x, h0 x⟩, rfl⟩
  have u' := Submodule.finrank_mono u
  have l' := Submodule.finrank_mono l
  have k1 : LinearMap.ker (δ.comp A) = LinearMap.ker A := by
    ext x
    simp only [LinearMap.mem_ker, LinearMap.comp_apply]
    exact ⟨h1 x, fun h => by rw [h, map_zero]⟩
  have r1 := LinearMap.finrank_range_add_finrank_ker (δ.comp A)
  have r2 := LinearMap.finrank_range_add_finrank_ker A
  rw [k1] at r1
  omega

end count

theorem coef_add {d : Dims} (v w : Fin d.n → ℝ) (c i j l : Nat) : coef d (v + w) c i j l = coef d v c i j l + coef d w c i j l := by
  unfold coef; split_ifs <;> simp

theorem coef_smul {d : Dims} (a : ℝ) (v : Fin d.n → ℝ) (c i j l : Nat) : coef d (a • v) c i j l = a * coef d v c i j l := by
  unfold coef; split_ifs <;> simp

end Mrx
