import Verif.Props.RunSetup
import Mathlib.Analysis.SpecialFunctions.Sqrt
import Mathlib.Analysis.Calculus.ContDiff.Operations
import Mathlib.Topology.Order.Compact

/-!
# C107: the helical map
-/

set_option linter.unusedVariables false
set_option linter.unusedSectionVars false

namespace Mrx.Props
open Mrx Spec Matrix DeRham Real

/-! ## The axis -/

/-- The second derivative of the axis vanishes exactly where the axis has an inflection on the inner side. -/
theorem helixX2_zero_iff {A α n ζ : ℝ} (hn : n ≠ 0) :
    helixX2 A α n ζ = 0 ↔ A * sin (2 * π * n * ζ + α) = 0 ∧ A * (1 + n ^ 2) * cos (2 * π * n * ζ + α) = -1 := by
  have hpi := Real.pi_ne_zero
  have hsc := sin_sq_add_cos_sq (2 * π * ζ)
  obtain ⟨s, hs⟩ : ∃ s, s = sin (2 * π * n * ζ + α) := ⟨_, rfl⟩
  obtain ⟨c, hc⟩ : ∃ c, c = cos (2 * π * n * ζ + α) := ⟨_, rfl⟩
  obtain ⟨S, hS⟩ : ∃ S, S = sin (2 * π * ζ) := ⟨_, rfl⟩
  obtain ⟨C, hC⟩ : ∃ C, C = cos (2 * π * ζ) := ⟨_, rfl⟩
  rw [← hS, ← hC] at hsc
  unfold helixX2
  simp only [← hs, ← hc, ← hS, ← hC]
  constructor
  · intro h
    have h0 := congrFun h 0
    have h1 := congrFun h 1
    have h2 := congrFun h 2
    simp only [cons_val_zero, cons_val_one, cons_val_two, tail_cons, head_cons, Pi.zero_apply] at h0 h1 h2
    constructor
    · have : (2 * π * n) ^ 2 * (A * s) = 0 := by linear_combination -h2
      exact (mul_eq_zero.1 this).resolve_left (by positivity)
    · have : (2 * π) ^ 2 * (A * (1 + n ^ 2) * c - -1) = 0 := by
        linear_combination -(S * h0 + C * h1) - (2 * π) ^ 2 * (A * (1 + n ^ 2) * c + 1) * hsc
      exact sub_eq_zero.1 ((mul_eq_zero.1 this).resolve_left (by positivity))
  · rintro ⟨h1, h2⟩
    ext i
    fin_cases i
    · simp only [Fin.zero_eta, cons_val_zero, Pi.zero_apply]
      linear_combination (-(2 * π) ^ 2 * S) * h2 - 2 * (2 * π) * (2 * π * n) * C * h1
    · simp only [Fin.mk_one, cons_val_one, cons_val_zero, Pi.zero_apply]
      linear_combination (-(2 * π) ^ 2 * C) * h2 + 2 * (2 * π) * (2 * π * n) * S * h1
    · show -(A * (2 * π * n) ^ 2 * s) = 0
      linear_combination (-(2 * π * n) ^ 2) * h1

/-- **C107** the frame of `helical_map` is defined along the whole axis exactly when `|κ h| (1 + nfp²) ≠ 1`: otherwise the second derivative of the axis, by whose norm it divides, vanishes
somewhere. -/
theorem C107_frame_defined_iff {h κ α n : ℝ} (hn : n ≠ 0) : (∀ ζ, deriv (deriv (helixX h κ α n)) ζ ≠ 0) ↔ |κ * h| * (1 + n ^ 2) ≠ 1 := by
  have hpi := Real.pi_ne_zero
  simp only [helix_deriv2, Ne, helixX2_zero_iff hn]
  obtain ⟨A, hA⟩ : ∃ A, A = κ * h := ⟨_, rfl⟩
  simp only [← hA]
  rw [← not_iff_not]
  push Not
  constructor
  · rintro ⟨ζ, h1, h2⟩
    have hA0 : A ≠ 0 := by rintro rfl; norm_num at h2
    have hs : sin (2 * π * n * ζ + α) = 0 := (mul_eq_zero.1 h1).resolve_left hA0
    have hc := sin_sq_add_cos_sq (2 * π * n * ζ + α)
    rw [hs] at hc
    have hc' : |cos (2 * π * n * ζ + α)| = 1 := by
      rw [← sq_eq_sq₀ (abs_nonneg _) zero_le_one, sq_abs]; linarith
    have := congrArg abs h2
    rw [abs_mul, hc', mul_one, abs_mul, abs_neg, abs_one, abs_of_pos (show (0 : ℝ) < 1 + n ^ 2 by positivity)] at this
    exact this
  · intro h1
    rcases le_or_gt 0 A with h0 | h0
    · rw [abs_of_nonneg h0] at h1
      refine ⟨(π - α) / (2 * π * n), ?_, ?_⟩ <;> rw [show 2 * π * n * ((π - α) / (2 * π * n)) + α = π by field_simp; ring]
      · simp
      · rw [cos_pi]; linarith
    · rw [abs_of_neg h0] at h1
      refine ⟨(0 - α) / (2 * π * n), ?_, ?_⟩ <;> rw [show 2 * π * n * ((0 - α) / (2 * π * n)) + α = 0 by field_simp; ring]
      · simp
      · rw [cos_zero]; linarith

/-- Case: the default parameters of the function are fine. -/
example : ∀ ζ, deriv (deriv (helixX 0.25 1.2 0 3)) ζ ≠ 0 := (C107_frame_defined_iff (by norm_num)).2 (by norm_num [abs_of_pos])

/-- Case: `h = 0.1`, `κ = 1` and three field periods are not. -/
example : ∃ ζ, deriv (deriv (helixX 0.1 1 0 3)) ζ = 0 := by
  have := (C107_frame_defined_iff (h := 0.1) (κ := 1) (α := 0) (n := 3) (by norm_num)).not.2 (by norm_num [abs_of_pos])
  push Not at this
  exact this

/-- The velocity and the acceleration of the axis are nowhere parallel. -/
theorem helix_cross {A α n ζ : ℝ} (hn : n ≠ 0) (hA : |A| < 1) (h2 : helixX2 A α n ζ ≠ 0) : crossProduct (helixX1 A α n ζ) (helixX2 A α n ζ) ≠ 0 := by
  have hpi := Real.pi_ne_zero
  intro hx
  apply h2
  rw [helixX2_zero_iff hn]
  have hsc := sin_sq_add_cos_sq (2 * π * ζ)
  have hAc : |A * cos (2 * π * n * ζ + α)| < 1 := by
    rw [abs_mul]; exact lt_of_le_of_lt (mul_le_of_le_one_right (abs_nonneg _) (abs_cos_le_one _)) hA
  obtain ⟨s, hs⟩ : ∃ s, s = sin (2 * π * n * ζ + α) := ⟨_, rfl⟩
  obtain ⟨c, hc⟩ : ∃ c, c = cos (2 * π * n * ζ + α) := ⟨_, rfl⟩
  obtain ⟨S, hS⟩ : ∃ S, S = sin (2 * π * ζ) := ⟨_, rfl⟩
  obtain ⟨C, hC⟩ : ∃ C, C = cos (2 * π * ζ) := ⟨_, rfl⟩
  rw [cross_apply] at hx
  unfold helixX1 helixX2 at hx
  rw [← hc] at hAc
  rw [← hS, ← hC] at hsc
  simp only [← hs, ← hc, ← hS, ← hC] at hx ⊢
  have h0 := congrFun hx 0
  have h1 := congrFun hx 1
  have h2 := congrFun hx 2
  simp only [cons_val_zero, cons_val_one, cons_val_two, tail_cons, head_cons, Pi.zero_apply] at h0 h1 h2
  have hm : 1 - A * c ≠ 0 := by have := (abs_lt.1 hAc).2; linarith
  have hp : 1 + A * c ≠ 0 := by have := (abs_lt.1 hAc).1; linarith
  have e1 : A * s = 0 := by
    have : (2 * π) ^ 3 * n ^ 2 * (1 - A * c) * (A * s) = 0 := by
      linear_combination S * h0 + C * h1 - ((2 * π) ^ 3 * n ^ 2 * (1 - A * c) * (A * s)) * hsc
    exact (mul_eq_zero.1 this).resolve_left (mul_ne_zero (by positivity) hm)
  refine ⟨e1, ?_⟩
  have : (2 * π) ^ 3 * (1 + A * c) * (A * (1 + n ^ 2) * c - -1) = 0 := by
    linear_combination -h2 - ((2 * π) ^ 3 * (1 + A * c) * (A * (1 + n ^ 2) * c + 1) + 2 * (2 * π) ^ 3 * n ^ 2 * (A * s) ^ 2) * hsc - 2 * (2 * π) ^ 3 * n ^ 2 * (A * s) * e1
  exact sub_eq_zero.1 ((mul_eq_zero.1 this).resolve_left (mul_ne_zero (by positivity) hp))

/-! ## Tubes around a curve -/

/-- The determinant of a tube `X(ζ) + ε r (cos 2πt N(ζ) + sin 2πt B(ζ))` around a curve. -/
theorem tube_jacobian {X N B : ℝ → V3} {ε : ℝ} {x X' N' B' : V3} (hX : HasDerivAt X X' (x 2)) (hN : HasDerivAt N N' (x 2)) (hB : HasDerivAt B B' (x 2)) :
    jacobianDeterminant (fun y => X (y 2) + (ε * y 0 * cos (2 * π * y 1)) • N (y 2) + (ε * y 0 * sin (2 * π * y 1)) • B (y 2)) x
      = 2 * π * ε ^ 2 * x 0 * (crossProduct (N (x 2)) (B (x 2)) ⬝ᵥ (X' + (ε * x 0 * cos (2 * π * x 1)) • N' + (ε * x 0 * sin (2 * π * x 1)) • B')) := by
  have hθ := (coord_hasFDerivAt 1 x).const_mul (2 * π)
  have hr := (coord_hasFDerivAt 0 x).const_mul ε
  have comp : ∀ (f : ℝ → V3) (f' : V3), HasDerivAt f f' (x 2) → ∀ i, HasFDerivAt (fun y : V3 => f (y 2) i)
      (f' i • (ContinuousLinearMap.proj (R := ℝ) (φ := fun _ : Fin 3 => ℝ) 2)) x := fun f f' hf i => by
    have h1 : HasDerivAt (fun z => f z i) (f' i) (x 2) := (hasDerivAt_pi.1 hf) i
    exact h1.comp_hasFDerivAt x (coord_hasFDerivAt 2 x)
  have e := jacfwd_of_components (F := fun y => X (y 2) + (ε * y 0 * cos (2 * π * y 1)) • N (y 2) + (ε * y 0 * sin (2 * π * y 1)) • B (y 2)) (x := x)
    (fun i => _) (fun i => ((comp X X' hX i).add ((hr.mul hθ.cos).mul (comp N N' hN i))).add ((hr.mul hθ.sin).mul (comp B B' hB i)))
  unfold jacobianDeterminant
  rw [det_fin_three]
  simp only [e]
  rw [cross_apply]
  simp [dotProduct, Fin.sum_univ_three]
  obtain ⟨c, hc⟩ : ∃ c, c = cos (2 * π * x 1) := ⟨_, rfl⟩
  obtain ⟨s, hs⟩ : ∃ s, s = sin (2 * π * x 1) := ⟨_, rfl⟩
  have hsc := cos_sq_add_sin_sq (2 * π * x 1)
  rw [← hc, ← hs] at hsc
  simp only [← hc, ← hs]
  linear_combination (2 * π * ε ^ 2 * x 0 * ((N (x 2) 1 * B (x 2) 2 - N (x 2) 2 * B (x 2) 1) * (X' 0 + ε * x 0 * c * N' 0 + ε * x 0 * s * B' 0) + (N (x 2) 2 * B (x 2) 0 - N (x 2) 0 * B (x 2) 2) * (X' 1 + ε * x 0 * c * N' 1 + ε * x 0 * s * B' 1) + (N (x 2) 0 * B (x 2) 1 - N (x 2) 1 * B (x 2) 0) * (X' 2 + ε * x 0 * c * N' 2 + ε * x 0 * s * B' 2))) * hsc

/-! ## The helical tube -/

theorem contDiff_helixX1 (A α n : ℝ) : ContDiff ℝ 1 (helixX1 A α n) := by
  rw [contDiff_pi]
  intro i
  fin_cases i
  · show ContDiff ℝ 1 fun ζ => -(A * (2 * π * n) * sin (2 * π * n * ζ + α)) * sin (2 * π * ζ) + (1 + A * cos (2 * π * n * ζ + α)) * (2 * π) * cos (2 * π * ζ)
    fun_prop
  · show ContDiff ℝ 1 fun ζ => -(A * (2 * π * n) * sin (2 * π * n * ζ + α)) * cos (2 * π * ζ) - (1 + A * cos (2 * π * n * ζ + α)) * (2 * π) * sin (2 * π * ζ)
    fun_prop
  · show ContDiff ℝ 1 fun ζ => A * (2 * π * n) * cos (2 * π * n * ζ + α)
    fun_prop

theorem contDiff_helixX2 (A α n : ℝ) : ContDiff ℝ 1 (helixX2 A α n) := by
  rw [contDiff_pi]
  intro i
  fin_cases i
  · show ContDiff ℝ 1 fun ζ => -(A * (2 * π * n) ^ 2 * cos (2 * π * n * ζ + α)) * sin (2 * π * ζ) - 2 * (A * (2 * π * n) * sin (2 * π * n * ζ + α)) * (2 * π) * cos (2 * π * ζ)
      - (1 + A * cos (2 * π * n * ζ + α)) * (2 * π) ^ 2 * sin (2 * π * ζ)
    fun_prop
  · show ContDiff ℝ 1 fun ζ => -(A * (2 * π * n) ^ 2 * cos (2 * π * n * ζ + α)) * cos (2 * π * ζ) + 2 * (A * (2 * π * n) * sin (2 * π * n * ζ + α)) * (2 * π) * sin (2 * π * ζ)
      - (1 + A * cos (2 * π * n * ζ + α)) * (2 * π) ^ 2 * cos (2 * π * ζ)
    fun_prop
  · show ContDiff ℝ 1 fun ζ => -(A * (2 * π * n) ^ 2 * sin (2 * π * n * ζ + α))
    fun_prop

/-- Normalising a nowhere vanishing field keeps it smooth. -/
theorem contDiff_unit {f : ℝ → V3} (hf : ContDiff ℝ 1 f) (h0 : ∀ z, f z ≠ 0) : ContDiff ℝ 1 fun z => (norm3 (f z))⁻¹ • f z := by
  have hc : ∀ i, ContDiff ℝ 1 fun z => f z i := contDiff_pi.1 hf
  have pos : ∀ z, f z 0 ^ 2 + f z 1 ^ 2 + f z 2 ^ 2 ≠ 0 := fun z h => h0 z (norm3_eq_zero.1 (by unfold norm3; rw [h, sqrt_zero]))
  have hn : ContDiff ℝ 1 fun z => norm3 (f z) := by
    unfold norm3
    exact ((((hc 0).pow 2).add ((hc 1).pow 2)).add ((hc 2).pow 2)).sqrt pos
  exact (hn.inv fun z h => h0 z (norm3_eq_zero.1 h)).smul hf

theorem contDiff_cross {f g : ℝ → V3} (hf : ContDiff ℝ 1 f) (hg : ContDiff ℝ 1 g) : ContDiff ℝ 1 fun z => crossProduct (f z) (g z) := by
  have hf' := contDiff_pi.1 hf
  have hg' := contDiff_pi.1 hg
  rw [contDiff_pi]
  intro i
  simp only [cross_apply]
  fin_cases i
  · exact ((hf' 1).mul (hg' 2)).sub ((hf' 2).mul (hg' 1))
  · exact ((hf' 2).mul (hg' 0)).sub ((hf' 0).mul (hg' 2))
  · exact ((hf' 0).mul (hg' 1)).sub ((hf' 1).mul (hg' 0))

theorem contDiff_helixX (h κ α n : ℝ) : ContDiff ℝ 1 (helixX h κ α n) := by
  rw [contDiff_pi]
  intro i
  fin_cases i
  · show ContDiff ℝ 1 fun ζ => (1 + κ * h * cos (2 * π * n * ζ + α)) * sin (2 * π * ζ)
    fun_prop
  · show ContDiff ℝ 1 fun ζ => (1 + κ * h * cos (2 * π * n * ζ + α)) * cos (2 * π * ζ)
    fun_prop
  · show ContDiff ℝ 1 fun ζ => κ * h * sin (2 * π * n * ζ + α)
    fun_prop

/-- The velocity vanishes nowhere. -/
theorem helixX1_ne {A α n ζ : ℝ} (hA : |A| < 1) : helixX1 A α n ζ ≠ 0 := by
  intro h
  have hAc : |A * cos (2 * π * n * ζ + α)| < 1 := by
    rw [abs_mul]; exact lt_of_le_of_lt (mul_le_of_le_one_right (abs_nonneg _) (abs_cos_le_one _)) hA
  have hp : 1 + A * cos (2 * π * n * ζ + α) ≠ 0 := by have := (abs_lt.1 hAc).1; linarith
  have hsc := sin_sq_add_cos_sq (2 * π * ζ)
  have h0 := congrFun h 0
  have h1 := congrFun h 1
  unfold helixX1 at h0 h1
  simp only [cons_val_zero, cons_val_one, Pi.zero_apply] at h0 h1
  have : (1 + A * cos (2 * π * n * ζ + α)) * (2 * π) = 0 := by
    linear_combination cos (2 * π * ζ) * h0 - sin (2 * π * ζ) * h1 - ((1 + A * cos (2 * π * n * ζ + α)) * (2 * π)) * hsc
  exact mul_ne_zero hp (by positivity) this

/-- **C107** the Jacobian determinant of `helical_map` wherever its frame is defined. -/
theorem C107_jacobian {ε h κ α n : ℝ} (hA : |κ * h| < 1) (hd : ∀ ζ, deriv (deriv (helixX h κ α n)) ζ ≠ 0) (x : V3) :
    jacobianDeterminant (helicalMap ε h κ α n) x = 2 * π * ε ^ 2 * x 0 * (crossProduct (helixNu1 h κ α n (x 2)) (helixNu2 h κ α n (x 2)) ⬝ᵥ
      (deriv (helixX h κ α n) (x 2) + (ε * x 0 * cos (2 * π * x 1)) • deriv (helixNu1 h κ α n) (x 2) + (ε * x 0 * sin (2 * π * x 1)) • deriv (helixNu2 h κ α n) (x 2))) ∧
    ContDiff ℝ 1 (helixNu1 h κ α n) ∧ ContDiff ℝ 1 (helixNu2 h κ α n) := by
  have hd' : ∀ ζ, helixX2 (κ * h) α n ζ ≠ 0 := fun ζ => by rw [← helix_deriv2]; exact hd ζ
  have u := contDiff_unit (contDiff_helixX2 (κ * h) α n) hd'
  have une : ∀ ζ, (norm3 (helixX2 (κ * h) α n ζ))⁻¹ • helixX2 (κ * h) α n ζ ≠ 0 := fun ζ =>
    smul_ne_zero (inv_ne_zero fun h0 => hd' ζ (norm3_eq_zero.1 h0)) (hd' ζ)
  have c1 : ContDiff ℝ 1 (helixNu1 h κ α n) := by
    have := contDiff_unit u une
    have e : helixNu1 h κ α n = fun z => (norm3 ((norm3 (helixX2 (κ * h) α n z))⁻¹ • helixX2 (κ * h) α n z))⁻¹ • ((norm3 (helixX2 (κ * h) α n z))⁻¹ • helixX2 (κ * h) α n z) := by
      funext z
      unfold helixNu1
      simp only [helix_deriv2]
    rw [e]; exact this
  have ct : ContDiff ℝ 1 (helixTau h κ α n) := by
    have := contDiff_unit (contDiff_helixX1 (κ * h) α n) fun z => helixX1_ne hA
    have e : helixTau h κ α n = fun z => (norm3 (helixX1 (κ * h) α n z))⁻¹ • helixX1 (κ * h) α n z := by
      funext z
      unfold helixTau
      simp only [helix_deriv]
    rw [e]; exact this
  have c2 : ContDiff ℝ 1 (helixNu2 h κ α n) := contDiff_cross ct c1
  refine ⟨?_, c1, c2⟩
  exact tube_jacobian (((contDiff_helixX h κ α n).differentiable one_ne_zero _).hasDerivAt) ((c1.differentiable one_ne_zero _).hasDerivAt)
    ((c2.differentiable one_ne_zero _).hasDerivAt)

/-- Case: the default helix. -/
example := C107_jacobian (ε := 0.33) (h := 0.25) (κ := 1.2) (α := 0) (n := 3) (by norm_num [abs_of_pos]) ((C107_frame_defined_iff (by norm_num)).2 (by norm_num [abs_of_pos])) ![1 / 2, 1 / 3, 1 / 4]

/-- On the axis the frame is right-handed: `(ν1 × ν2) · X'` is positive. -/
theorem helix_orientation {h κ α n ζ : ℝ} (hn : n ≠ 0) (hA : |κ * h| < 1) (hd : deriv (deriv (helixX h κ α n)) ζ ≠ 0) :
    0 < crossProduct (helixNu1 h κ α n ζ) (helixNu2 h κ α n ζ) ⬝ᵥ deriv (helixX h κ α n) ζ := by
  have hd' : helixX2 (κ * h) α n ζ ≠ 0 := by rw [← helix_deriv2]; exact hd
  have h1 := helixX1_ne (α := α) (n := n) (ζ := ζ) hA
  have hx := helix_cross hn hA hd'
  have np : ∀ v : V3, v ≠ 0 → 0 < norm3 v := fun v hv => lt_of_le_of_ne (sqrt_nonneg _) fun h0 => hv (norm3_eq_zero.1 h0.symm)
  have pt := np _ h1
  have p2 := np _ hd'
  have e1 : deriv (helixX h κ α n) ζ = norm3 (helixX1 (κ * h) α n ζ) • helixTau h κ α n ζ := by
    unfold helixTau
    rw [helix_deriv, smul_smul, mul_inv_cancel₀ pt.ne', one_smul]
  have hB : helixNu2 h κ α n ζ ≠ 0 := by
    unfold helixNu2 helixTau helixNu1
    simp only [helix_deriv, helix_deriv2, map_smul, LinearMap.smul_apply]
    refine smul_ne_zero (inv_ne_zero ?_) (smul_ne_zero (inv_ne_zero p2.ne') (smul_ne_zero (inv_ne_zero pt.ne') hx))
    exact fun h0 => (smul_ne_zero (inv_ne_zero p2.ne') hd') (norm3_eq_zero.1 h0)
  have e2 : crossProduct (helixNu1 h κ α n ζ) (helixNu2 h κ α n ζ) ⬝ᵥ helixTau h κ α n ζ = helixNu2 h κ α n ζ ⬝ᵥ helixNu2 h κ α n ζ := by
    rw [dotProduct_comm, triple_product_permutation, triple_product_permutation]
    rfl
  rw [e1, dotProduct_smul, e2, smul_eq_mul]
  refine mul_pos pt ?_
  have : 0 < norm3 (helixNu2 h κ α n ζ) := np _ hB
  have e3 : helixNu2 h κ α n ζ ⬝ᵥ helixNu2 h κ α n ζ = norm3 (helixNu2 h κ α n ζ) ^ 2 := by
    unfold norm3
    rw [sq_sqrt (by positivity)]
    simp only [dotProduct, Fin.sum_univ_three]
    ring
  rw [e3]
  positivity

theorem continuous_dot {f g : ℝ → V3} (hf : Continuous f) (hg : Continuous g) : Continuous fun z => f z ⬝ᵥ g z := by
  have hf' := continuous_pi_iff.1 hf
  have hg' := continuous_pi_iff.1 hg
  simp only [dotProduct, Fin.sum_univ_three]
  exact (((hf' 0).mul (hg' 0)).add ((hf' 1).mul (hg' 1))).add ((hf' 2).mul (hg' 2))

/-- **C107** thin tubes are regular: for a helix with `|κ h| < 1` and a frame that is defined everywhere there are a thickness and a constant such that for every smaller thickness `ε` the
determinant is at least `c ε² r` (over one turn). -/
theorem C107_thin_tubes {h κ α n : ℝ} (hn : n ≠ 0) (hA : |κ * h| < 1) (hd : |κ * h| * (1 + n ^ 2) ≠ 1) :
    ∃ ε0 > 0, ∃ c > 0, ∀ ε, 0 ≤ ε → ε ≤ ε0 → ∀ x : V3, 0 ≤ x 0 → x 0 ≤ 1 → 0 ≤ x 2 → x 2 ≤ 1 → c * ε ^ 2 * x 0 ≤ jacobianDeterminant (helicalMap ε h κ α n) x := by
  have hd' := (C107_frame_defined_iff (h := h) (κ := κ) (α := α) hn).2 hd
  obtain ⟨-, c1, c2⟩ := C107_jacobian (ε := 0) hA hd' 0
  have cc := (contDiff_cross c1 c2).continuous
  have cX : Continuous (deriv (helixX h κ α n)) := (contDiff_helixX h κ α n).continuous_deriv le_rfl
  have k0 := continuous_dot cc cX
  have k1 := continuous_dot cc (c1.continuous_deriv le_rfl)
  have k2 := continuous_dot cc (c2.continuous_deriv le_rfl)
  obtain ⟨z0, hz0, hmin⟩ := (isCompact_Icc (a := (0 : ℝ)) (b := 1)).exists_isMinOn ⟨0, by simp⟩ k0.continuousOn
  have hm := helix_orientation hn hA (hd' z0)
  obtain ⟨m, hmdef⟩ : ∃ m, m = crossProduct (helixNu1 h κ α n z0) (helixNu2 h κ α n z0) ⬝ᵥ deriv (helixX h κ α n) z0 := ⟨_, rfl⟩
  rw [← hmdef] at hm
  obtain ⟨K1, hK1⟩ := (isCompact_Icc (a := (0 : ℝ)) (b := 1)).exists_bound_of_continuousOn k1.continuousOn
  obtain ⟨K2, hK2⟩ := (isCompact_Icc (a := (0 : ℝ)) (b := 1)).exists_bound_of_continuousOn k2.continuousOn
  have pK1 : 0 ≤ K1 := le_trans (norm_nonneg _) (hK1 0 (by simp))
  have pK2 : 0 ≤ K2 := le_trans (norm_nonneg _) (hK2 0 (by simp))
  refine ⟨m / (2 * (K1 + K2 + 1)), by positivity, π * m, by positivity, fun ε e0 e1 x x0 x1 z0' z1' => ?_⟩
  rw [(C107_jacobian hA hd' x).1]
  have a0 : m ≤ crossProduct (helixNu1 h κ α n (x 2)) (helixNu2 h κ α n (x 2)) ⬝ᵥ deriv (helixX h κ α n) (x 2) := by
    rw [hmdef]; exact hmin ⟨z0', z1'⟩
  have a1 := hK1 (x 2) ⟨z0', z1'⟩
  have a2 := hK2 (x 2) ⟨z0', z1'⟩
  rw [Real.norm_eq_abs] at a1 a2
  rw [dotProduct_add, dotProduct_add, dotProduct_smul, dotProduct_smul, smul_eq_mul, smul_eq_mul]
  generalize crossProduct (helixNu1 h κ α n (x 2)) (helixNu2 h κ α n (x 2)) ⬝ᵥ deriv (helixX h κ α n) (x 2) = g0 at a0
  generalize crossProduct (helixNu1 h κ α n (x 2)) (helixNu2 h κ α n (x 2)) ⬝ᵥ deriv (helixNu1 h κ α n) (x 2) = g1 at a1
  generalize crossProduct (helixNu1 h κ α n (x 2)) (helixNu2 h κ α n (x 2)) ⬝ᵥ deriv (helixNu2 h κ α n) (x 2) = g2 at a2
  have er : ε * x 0 ≤ m / (2 * (K1 + K2 + 1)) := le_trans (mul_le_of_le_one_right e0 x1) e1
  have er0 : 0 ≤ ε * x 0 := mul_nonneg e0 x0
  have b1 : |ε * x 0 * cos (2 * π * x 1) * g1| ≤ ε * x 0 * K1 := by
    rw [abs_mul, abs_mul, abs_of_nonneg er0]
    calc ε * x 0 * |cos (2 * π * x 1)| * |g1| ≤ ε * x 0 * 1 * K1 := by
          gcongr
          exact abs_cos_le_one _
      _ = ε * x 0 * K1 := by ring
  have b2 : |ε * x 0 * sin (2 * π * x 1) * g2| ≤ ε * x 0 * K2 := by
    rw [abs_mul, abs_mul, abs_of_nonneg er0]
    calc ε * x 0 * |sin (2 * π * x 1)| * |g2| ≤ ε * x 0 * 1 * K2 := by
          gcongr
          exact abs_sin_le_one _
      _ = ε * x 0 * K2 := by ring
  have b3 : ε * x 0 * K1 + ε * x 0 * K2 ≤ m / 2 := by
    rw [le_div_iff₀ (by positivity)] at er
    nlinarith
  have := (abs_le.1 b1).1
  have := (abs_le.1 b2).1
  have fin : m / 2 ≤ g0 + ε * x 0 * cos (2 * π * x 1) * g1 + ε * x 0 * sin (2 * π * x 1) * g2 := by linarith
  calc π * m * ε ^ 2 * x 0 = 2 * π * ε ^ 2 * x 0 * (m / 2) := by ring
    _ ≤ _ := by gcongr

/-- Case: the default helix. -/
example := C107_thin_tubes (h := 0.25) (κ := 1.2) (α := 0) (n := 3) (by norm_num) (by norm_num [abs_of_pos]) (by norm_num [abs_of_pos])

/-! ## The quadrature points lie in the unit cube -/

theorem zeta_points {ns ps : Nat × Nat × Nat} {q : Nat} {types : String × String × String} {S : Seq ℝ} (hS : Seq.mk? ns ps q types = .ok S)
    (hq : q ≤ 10) (hz : DirOK ns.2.2 ps.2.2 q types.2.2) : ∀ x ∈ S.Q.x, 0 ≤ x.2.2 ∧ x.2.2 ≤ 1 := by
  by_cases hc : types.2.2 = "constant"
  · intro x hx
    rw [constant_point hS hc x hx]
    norm_num
  obtain ⟨m0, _, _, _, hQ⟩ := Seq.mk?_inv hS
  obtain ⟨_, _, s0, s1, s2, _⟩ := Form.mk?_inv m0
  have htens := Seq.rule_isTensor hQ
  unfold Quad.Rule.mk? at hQ
  split at hQ
  case h_2 => cases hQ
  rename_i rx ry rz hx' hy' hz'
  have hQ' := Except.ok.inj hQ
  have exz : S.Q.xz = rz.1 := by rw [← hQ']; rfl
  rw [htens, exz]
  intro x hx
  simp only [List.mem_flatMap, List.mem_map] at hx
  obtain ⟨y, hy, r, hr', z, hzm, rfl⟩ := hx
  rcases hz with ⟨ht, a, b, c, e⟩ | ⟨ht, a, b, c, d, e⟩ | ⟨ht, _⟩
  · rw [ht] at s2
    obtain ⟨xs, ws, g1, g2, _, _, g3, _⟩ := C11_select_rule ns.2.2 ps.2.2 a "clamped" _ (Or.inl ⟨rfl, b, rfl⟩) _ s2 q (by omega) hq
    rw [g1] at hz'
    obtain rfl := Except.ok.inj hz'
    exact ⟨(g3 z hzm).1.le, (g3 z hzm).2.le⟩
  · rw [ht] at s2
    obtain ⟨xs, ws, g1, g2, _, _, g3, _⟩ := C11_select_rule ns.2.2 ps.2.2 a "periodic" _ (Or.inr ⟨rfl, c, b, rfl⟩) _ s2 q (by omega) hq
    rw [g1] at hz'
    obtain rfl := Except.ok.inj hz'
    exact ⟨(g3 z hzm).1.le, (g3 z hzm).2.le⟩
  · exact absurd ht hc

/-- **C107** hence every sufficiently thin helical tube, discretised with radial elements that are not too small for its thickness, is admissible. -/
theorem C107_admissible {h κ α n : ℝ} (hn : n ≠ 0) (hA : |κ * h| < 1) (hd : |κ * h| * (1 + n ^ 2) ≠ 1) :
    ∃ ε0 > 0, ∃ c > 0, ∀ (ns ps : Nat × Nat × Nat) (q : Nat) (types : String × String × String) (polar dirichlet : Bool) (ε : ℝ), Sizes ns ps q types polar →
      0 ≤ ε → ε ≤ ε0 → 1e-5 ≤ c * ε ^ 2 * innermost (ns.1 - ps.1) q → ∃ D, Admissible ns ps q types (helicalMap ε h κ α n) polar dirichlet D := by
  obtain ⟨ε0, p0, c, pc, hJ⟩ := C107_thin_tubes (α := α) hn hA hd
  refine ⟨ε0, p0, c, pc, fun ns ps q types polar dirichlet ε hs e0 e1 hle => ?_⟩
  obtain ⟨D, hb⟩ := hs.built (helicalMap ε h κ α n) dirichlet
  obtain ⟨-, a, b, -⟩ := C105_innermost hs hb
  refine ⟨D, hb, hs.q10, hs.r, hs.t, hs.z, hs.polar, fun x hx => ?_⟩
  obtain ⟨a1, a2⟩ := a x hx
  have pos : (0 : ℝ) < innermost (ns.1 - ps.1) q := lt_of_lt_of_le (by
    have := hs.m.1
    have : (0 : ℝ) < ((ns.1 - ps.1 : Nat) : ℝ) := by exact_mod_cast this
    positivity) b
  obtain ⟨z0, z1⟩ := zeta_points (Admissible.seq hb) hs.q10 hs.z x hx
  refine le_trans hle (le_trans ?_ (hJ ε e0 e1 (toV3 x) (le_trans pos.le a1) a2.le z0 z1))
  exact mul_le_mul_of_nonneg_left a1 (by positivity)

/-- Case: the default helix. -/
example := C107_admissible (h := 0.25) (κ := 1.2) (α := 0) (n := 3) (by norm_num) (by norm_num [abs_of_pos]) (by norm_num [abs_of_pos])

/-! ## The helix of height zero -/

/-- **C107** with `h = 0` (or `κ = 0`), which is the default of `solovev.py`, there is no helix: the map is the circular torus around the unit circle, whatever the number of field periods and
the phase. -/
theorem C107_no_height {ε h κ α n : ℝ} (h0 : κ * h = 0) (x : V3) :
    helicalMap ε h κ α n x = ![(1 - ε * x 0 * cos (2 * π * x 1)) * sin (2 * π * x 2), (1 - ε * x 0 * cos (2 * π * x 1)) * cos (2 * π * x 2), -(ε * x 0 * sin (2 * π * x 1))] := by
  have hpi := Real.pi_pos
  have hsc := sin_sq_add_cos_sq (2 * π * x 2)
  have e1 : helixX1 0 α n (x 2) = (2 * π) • ![cos (2 * π * x 2), -sin (2 * π * x 2), 0] := by
    ext i; fin_cases i <;> simp [helixX1]
  have e2 : helixX2 0 α n (x 2) = ((2 * π) ^ 2) • ![-sin (2 * π * x 2), -cos (2 * π * x 2), 0] := by
    ext i; fin_cases i <;> simp [helixX2]
  have n1 : norm3 ![cos (2 * π * x 2), -sin (2 * π * x 2), 0] = 1 := by
    unfold norm3
    simp
  have n2 : norm3 ![-sin (2 * π * x 2), -cos (2 * π * x 2), 0] = 1 := by
    unfold norm3
    simp
  have et : helixTau h κ α n (x 2) = ![cos (2 * π * x 2), -sin (2 * π * x 2), 0] := by
    unfold helixTau
    rw [helix_deriv, h0, e1, norm3_smul, n1, abs_of_pos (by positivity), smul_smul, mul_one, inv_mul_cancel₀ (by positivity), one_smul]
  have en : helixNu1 h κ α n (x 2) = ![-sin (2 * π * x 2), -cos (2 * π * x 2), 0] := by
    unfold helixNu1
    simp only [helix_deriv2]
    have e3 : (norm3 (helixX2 0 α n (x 2)))⁻¹ • helixX2 0 α n (x 2) = ![-sin (2 * π * x 2), -cos (2 * π * x 2), 0] := by
      rw [e2, norm3_smul, n2, abs_of_pos (by positivity), smul_smul, mul_one, inv_mul_cancel₀ (by positivity), one_smul]
    rw [h0, e3, n2, inv_one, one_smul]
  have eb : helixNu2 h κ α n (x 2) = ![0, 0, -1] := by
    unfold helixNu2
    rw [et, en, cross_apply]
    ext i; fin_cases i
    · simp
    · simp
    · simp; linarith
  unfold helicalMap
  simp only [en, eb]
  ext i; fin_cases i
  · simp [helixX, h0]; ring
  · simp [helixX, h0]; ring
  · simp [helixX, h0]

/-- **C107** its determinant. -/
theorem C107_no_height_jacobian {ε h κ α n : ℝ} (h0 : κ * h = 0) (x : V3) :
    jacobianDeterminant (helicalMap ε h κ α n) x = (2 * π) ^ 2 * ε ^ 2 * x 0 * (1 - ε * x 0 * cos (2 * π * x 1)) := by
  have hF : helicalMap ε h κ α n = fun y => ![0, 0, 0] + (ε * y 0 * cos (2 * π * y 1)) • ![-sin (2 * π * y 2), -cos (2 * π * y 2), 0]
      + (ε * y 0 * sin (2 * π * y 1)) • ![0, 0, -1] + ![sin (2 * π * y 2), cos (2 * π * y 2), 0] := by
    funext y
    rw [C107_no_height h0]
    ext i; fin_cases i
    · simp; ring
    · simp; ring
    · simp
  have hF' : helicalMap ε h κ α n = fun y => (fun z : ℝ => (![sin (2 * π * z), cos (2 * π * z), 0] : V3)) (y 2)
      + (ε * y 0 * cos (2 * π * y 1)) • (fun z : ℝ => (![-sin (2 * π * z), -cos (2 * π * z), 0] : V3)) (y 2) + (ε * y 0 * sin (2 * π * y 1)) • (fun _ : ℝ => (![0, 0, -1] : V3)) (y 2) := by
    rw [hF]; funext y; ext i; fin_cases i <;> simp <;> ring
  have hφ : HasDerivAt (fun z : ℝ => 2 * π * z) (2 * π) (x 2) := by simpa using (hasDerivAt_id (x 2)).const_mul (2 * π)
  have hX : HasDerivAt (fun z : ℝ => (![sin (2 * π * z), cos (2 * π * z), 0] : V3)) ![cos (2 * π * x 2) * (2 * π), -sin (2 * π * x 2) * (2 * π), 0] (x 2) := by
    rw [hasDerivAt_pi]
    intro i; fin_cases i
    · exact hφ.sin
    · exact hφ.cos
    · exact hasDerivAt_const _ _
  have hN : HasDerivAt (fun z : ℝ => (![-sin (2 * π * z), -cos (2 * π * z), 0] : V3)) ![-(cos (2 * π * x 2) * (2 * π)), -(-sin (2 * π * x 2) * (2 * π)), 0] (x 2) := by
    rw [hasDerivAt_pi]
    intro i; fin_cases i
    · exact hφ.sin.neg
    · exact hφ.cos.neg
    · exact hasDerivAt_const _ _
  have hB : HasDerivAt (fun _ : ℝ => (![0, 0, -1] : V3)) 0 (x 2) := hasDerivAt_const _ _
  rw [hF', tube_jacobian hX hN hB, cross_apply]
  have hsc := sin_sq_add_cos_sq (2 * π * x 2)
  simp [dotProduct, Fin.sum_univ_three]
  linear_combination ((2 * π) ^ 2 * ε ^ 2 * x 0 * (1 - ε * x 0 * cos (2 * π * x 1))) * hsc

section
variable {ns ps : Nat × Nat × Nat} {q : Nat} {types : String × String × String} {polar dirichlet : Bool} {D : DeRham}

/-- Case. -/
example := C107_no_height_jacobian (ε := 0.2) (h := 0) (κ := 1.7) (α := 0) (n := 3) (by norm_num) ![1 / 2, 1 / 3, 1 / 4]

/-- **C107** so that it is admissible with the resolution of a circular torus. -/
theorem C107_no_height_admissible {ε h κ α n : ℝ} (h0 : κ * h = 0) (hε : 0 ≤ ε) (hε1 : ε ≤ 1) (hs : Sizes ns ps q types polar)
    (hb : DeRham.mk? ns ps q types (helicalMap ε h κ α n) polar dirichlet = .ok D) (hle : 1e-5 ≤ (2 * π) ^ 2 * ε ^ 2 * (1 - ε) * innermost (ns.1 - ps.1) q) :
    Admissible ns ps q types (helicalMap ε h κ α n) polar dirichlet D := by
  have h1 := sub_nonneg.2 hε1
  refine admissible_of_lower hs hb (by positivity) (fun x x0 x1 => ?_) hle
  rw [C107_no_height_jacobian h0]
  have hc := cos_le_one (2 * π * x 1)
  have : 1 - ε ≤ 1 - ε * x 0 * cos (2 * π * x 1) := by
    have : ε * x 0 * cos (2 * π * x 1) ≤ ε * x 0 * 1 := by gcongr
    have : ε * x 0 ≤ ε * 1 := by gcongr
    linarith
  calc (2 * π) ^ 2 * ε ^ 2 * (1 - ε) * x 0 = (2 * π) ^ 2 * ε ^ 2 * x 0 * (1 - ε) := by ring
    _ ≤ _ := by gcongr

end

section
variable (P : IO.PyChars ℝ) (zero : ℝ → Bool)
open IO

/-- **C107 (finding)** `solovev.py boundary_type=helix` without further shape parameters does not run on a helix: the default height is zero, and the domain is the circular torus with `ε = 0.2`;
the elongation, the triangularity and the number of field periods have no influence. The sequence is admissible. -/
theorem C107_helix_run {params : PyDict (ArgVal ℝ)} (hp : (params.map (·.1)).Nodup) (hb : params.get? "boundary_type".toList = some (.str "helix".toList))
    (hno : ∀ k ∈ ["device", "eps", "h_helix", "nfp", "kappa", "delta"], params.get? k.toList = none) {nr nt nz pr pt pz : Nat}
    (ha : Asks params [("n_r", 8, nr), ("n_theta", 8, nt), ("n_zeta", 6, nz), ("p_r", 3, pr), ("p_theta", 3, pt), ("p_zeta", 3, pz)]) (hs : RunSizes nr nt nz pr pt pz) :
    ∃ F D, solovevRun P zero false params = .ok D ∧ RunOn nr nt nz pr pt pz F D ∧
      ∀ x : V3, F x = ![(1 - 0.2 * x 0 * cos (2 * π * x 1)) * sin (2 * π * x 2), (1 - 0.2 * x 0 * cos (2 * π * x 1)) * cos (2 * π * x 2), -(0.2 * x 0 * sin (2 * π * x 1))] := by
  obtain ⟨c, hc, hv⟩ := final_config P zero (config := defaultConfig realLits) hp (.inl (hno "device" (by decide)))
  rw [selected_none P (hno "device" (by decide))] at hv
  have v : ∀ (k : String) (v : ArgVal ℝ), (defaultConfig realLits).get? k.toList = some v → params.get? k.toList = none → c.get? k.toList = some v := fun k v h1 h2 => by
    rw [hv k v h1, h2]; rfl
  have w : ∀ (k : String) (d n : Nat), (defaultConfig realLits).get? k.toList = some (.int d) → (params.get? k.toList).getD (.int (d : Int)) = .int (n : Int) →
      c.get? k.toList = some (.int (n : Int)) := fun k d n h1 h2 => by rw [hv k _ h1, h2]
  have hs' := hs.sizes
  have h1 := hs'.m.1
  have b := (innermost_bounds hs'.m.1 hs'.m.2 hs'.q10).1
  have hm' : ((nr - pr : Nat) : ℝ) ≤ 200 := by exact_mod_cast (show nr - pr ≤ 200 by have := hs.r; omega)
  have hm1 : (1 : ℝ) ≤ ((nr - pr : Nat) : ℝ) := by exact_mod_cast h1
  have k : 1 / (77 * 200 : ℝ) ≤ innermost (nr - pr) (pointsOf (pr, pt, if nz = 1 then 0 else pz)) := le_trans (by gcongr) b
  have p2 : (39 : ℝ) ≤ (2 * π) ^ 2 := by nlinarith [pi_gt_d6]
  obtain ⟨D, hD⟩ := hs'.built (helicalMap 0.2 0 1.7 (arcsin 0) 3) true
  have hadm : RunOn nr nt nz pr pt pz (helicalMap 0.2 0 1.7 (arcsin 0) 3) D := by
    refine C107_no_height_admissible (by norm_num) (by norm_num) (by norm_num) hs' hD ?_
    calc (1e-5 : ℝ) ≤ 39 * 0.2 ^ 2 * (1 - 0.2) * (1 / (77 * 200)) := by norm_num
      _ ≤ (2 * π) ^ 2 * 0.2 ^ 2 * (1 - 0.2) * innermost (nr - pr) (pointsOf (pr, pt, if nz = 1 then 0 else pz)) := by gcongr
  refine ⟨helicalMap 0.2 0 1.7 (arcsin 0) 3, D, ?_, hadm, C107_no_height (by norm_num)⟩
  have hsz := sizesOf_eq (w "n_r" 8 nr rfl (ha ("n_r", 8, nr) (by simp))) (w "n_theta" 8 nt rfl (ha ("n_theta", 8, nt) (by simp)))
    (w "n_zeta" 6 nz rfl (ha ("n_zeta", 6, nz) (by simp))) (w "p_r" 3 pr rfl (ha ("p_r", 3, pr) (by simp))) (w "p_theta" 3 pt rfl (ha ("p_theta", 3, pt) (by simp)))
    (w "p_zeta" 3 pz rfl (ha ("p_zeta", 3, pz) (by simp)))
  have hmap : solovevMapOf c = .ok (helicalMap 0.2 0 1.7 (arcsin 0) 3) := by
    unfold solovevMapOf
    rw [hv "boundary_type" (.str "rotating_ellipse".toList) rfl, hb]
    dsimp only [Option.getD]
    rw [if_neg (by simp), if_pos rfl]
    unfold helixOf configNum
    rw [v "eps" _ rfl (hno "eps" (by decide)), v "h_helix" _ rfl (hno "h_helix" (by decide)), v "nfp" _ rfl (hno "nfp" (by decide)), v "kappa" _ rfl (hno "kappa" (by decide)),
      v "delta" _ rfl (hno "delta" (by decide))]
    simp only [ArgVal.num]
    norm_num [realLits]
  unfold solovevRun
  rw [hc]
  dsimp only
  rw [if_neg (by simp)]
  unfold solovevBuild
  rw [hmap]
  exact buildRun_ok hsz hadm

/-- Case: `solovev.py boundary_type=helix`. -/
example := C107_helix_run P zero (params := [("boundary_type".toList, .str "helix".toList)]) (by decide) rfl
  (fun k hk => by simp only [List.mem_cons, List.not_mem_nil, or_false] at hk; rcases hk with rfl | rfl | rfl | rfl | rfl | rfl <;> rfl)
  (nr := 8) (nt := 8) (nz := 6) (pr := 3) (pt := 3) (pz := 3)
  (fun x hx => by simp only [List.mem_cons, List.not_mem_nil, or_false] at hx; rcases hx with rfl | rfl | rfl | rfl | rfl | rfl <;> rfl)
  ⟨by norm_num, by norm_num, by norm_num⟩

end
end Mrx.Props
