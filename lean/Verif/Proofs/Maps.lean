import Verif.Model.Mappings
import Verif.Spec.Maps
import Mathlib.Tactic.Ring
import Mathlib.Tactic.LinearCombination
import Mathlib.Analysis.Calculus.FDeriv.Mul
import Mathlib.Analysis.Calculus.FDeriv.Add
import Mathlib.Analysis.Calculus.Deriv.Comp
import Mathlib.Analysis.Calculus.Deriv.Mul
import Mathlib.Analysis.Calculus.FDeriv.Pi

/-! # Derivatives of maps given in cylindrical or polar form -/

set_option linter.unusedVariables false

namespace Mrx
open Real Matrix

/-- The differential of a coordinate. -/
theorem coord_hasFDerivAt (j : Fin 3) (x : V3) :
    HasFDerivAt (fun y : V3 => y j) (ContinuousLinearMap.proj (R := ℝ) (φ := fun _ : Fin 3 => ℝ) j) x :=
  hasFDerivAt_apply j x

/-- The Jacobian of a map with three known component differentials. -/
theorem jacfwd_of_components {F : V3 → V3} {x : V3} (F' : Fin 3 → (V3 →L[ℝ] ℝ))
    (h : ∀ i, HasFDerivAt (fun y => F y i) (F' i) x) (i j : Fin 3) : jacfwd F x i j = F' i (Pi.single j 1) := by
  have hF : HasFDerivAt F (ContinuousLinearMap.pi F') x := hasFDerivAt_pi'' (by intro i; simpa using h i)
  unfold jacfwd
  rw [hF.fderiv]; rfl

/-- `det DF` of `F = (R cos cζ, −R sin cζ, Z)` with `R`, `Z` differentiable functions of all coordinates. -/
theorem det_cylindrical {R Z : V3 → ℝ} {c : ℝ} {x : V3} {R' Z' : V3 →L[ℝ] ℝ} (hR : HasFDerivAt R R' x) (hZ : HasFDerivAt Z Z' x) :
    jacobianDeterminant (fun y => Spec.cylindrical (R y) (c * y 2) (Z y)) x
      = c * R x * (R' (Pi.single 0 1) * Z' (Pi.single 1 1) - R' (Pi.single 1 1) * Z' (Pi.single 0 1)) := by
  have hφ := (coord_hasFDerivAt 2 x).const_mul c
  have e := jacfwd_of_components (F := fun y => Spec.cylindrical (R y) (c * y 2) (Z y)) (x := x)
    ![_, _, _] (by
      intro i
      fin_cases i
      · exact hR.mul hφ.cos
      · exact hR.neg.mul hφ.sin
      · exact hZ)
  unfold jacobianDeterminant
  rw [det_fin_three]
  simp only [e]
  simp [ContinuousLinearMap.add_apply]
  linear_combination (c * R x * (R' (Pi.single 0 1) * Z' (Pi.single 1 1) - R' (Pi.single 1 1) * Z' (Pi.single 0 1))) * (cos_sq_add_sin_sq (c * x 2))

/-- `det DF` of `F = (X, −z, Y)` with `X`, `Y` differentiable. -/
theorem det_slab {X Y : V3 → ℝ} {x : V3} {X' Y' : V3 →L[ℝ] ℝ} (hX : HasFDerivAt X X' x) (hY : HasFDerivAt Y Y' x) :
    jacobianDeterminant (fun y => ![X y, -y 2, Y y]) x
      = X' (Pi.single 0 1) * Y' (Pi.single 1 1) - X' (Pi.single 1 1) * Y' (Pi.single 0 1) := by
  have e := jacfwd_of_components (F := fun y => ![X y, -y 2, Y y]) (x := x)
    ![X', _, Y'] (by
      intro i
      fin_cases i
      · exact hX
      · exact (coord_hasFDerivAt 2 x).neg
      · exact hY)
  unfold jacobianDeterminant
  rw [det_fin_three]
  simp only [e]
  simp
  ring

/-- `det DF` of `F = (X, Y, h z)` with `X`, `Y` differentiable. -/
theorem det_straight {X Y : V3 → ℝ} {h : ℝ} {x : V3} {X' Y' : V3 →L[ℝ] ℝ} (hX : HasFDerivAt X X' x) (hY : HasFDerivAt Y Y' x) :
    jacobianDeterminant (fun y => ![X y, Y y, h * y 2]) x
      = h * (X' (Pi.single 0 1) * Y' (Pi.single 1 1) - X' (Pi.single 1 1) * Y' (Pi.single 0 1)) := by
  have e := jacfwd_of_components (F := fun y => ![X y, Y y, h * y 2]) (x := x)
    ![X', Y', _] (by
      intro i
      fin_cases i
      · exact hX
      · exact hY
      · exact (coord_hasFDerivAt 2 x).const_mul h)
  unfold jacobianDeterminant
  rw [det_fin_three]
  simp only [e]
  simp
  ring

/-- Polar coordinates with a radius depending on the angle: `a(χ) r cos 2πχ`. -/
theorem hasFDerivAt_polarCos {a : ℝ → ℝ} {a' c : ℝ} {x : V3} (ha : HasDerivAt a a' (x 1)) :
    ∃ L : V3 →L[ℝ] ℝ, HasFDerivAt (fun y : V3 => c + a (y 1) * y 0 * cos (2 * π * y 1)) L x
      ∧ L (Pi.single 0 1) = a (x 1) * cos (2 * π * x 1)
      ∧ L (Pi.single 1 1) = x 0 * (a' * cos (2 * π * x 1) - a (x 1) * (2 * π) * sin (2 * π * x 1)) := by
  have h1 := ha.hasFDerivAt.comp x (coord_hasFDerivAt 1 x)
  have h := ((h1.mul (coord_hasFDerivAt 0 x)).mul ((coord_hasFDerivAt 1 x).const_mul (2 * π)).cos).const_add c
  refine ⟨_, h, ?_, ?_⟩
  · simp; ring
  · simp; ring

theorem hasFDerivAt_polarSin {a : ℝ → ℝ} {a' : ℝ} {x : V3} (ha : HasDerivAt a a' (x 1)) :
    ∃ L : V3 →L[ℝ] ℝ, HasFDerivAt (fun y : V3 => a (y 1) * y 0 * sin (2 * π * y 1)) L x
      ∧ L (Pi.single 0 1) = a (x 1) * sin (2 * π * x 1)
      ∧ L (Pi.single 1 1) = x 0 * (a' * sin (2 * π * x 1) + a (x 1) * (2 * π) * cos (2 * π * x 1)) := by
  have h1 := ha.hasFDerivAt.comp x (coord_hasFDerivAt 1 x)
  have h := (h1.mul (coord_hasFDerivAt 0 x)).mul ((coord_hasFDerivAt 1 x).const_mul (2 * π)).sin
  refine ⟨_, h, ?_, ?_⟩
  · simp; ring
  · simp; ring

/-- `arctan2` gives the angle of a point in the plane. -/
theorem arctan2_polar (y x : ℝ) : √ (x ^ 2 + y ^ 2) * cos (arctan2 y x) = x ∧ √ (x ^ 2 + y ^ 2) * sin (arctan2 y x) = y := by
  have hn : ‖(⟨x, y⟩ : ℂ)‖ = √ (x ^ 2 + y ^ 2) := by
    rw [Complex.norm_def, Complex.normSq_mk]; congr 1; ring
  have h := Complex.norm_mul_exp_arg_mul_I (⟨x, y⟩ : ℂ)
  rw [hn] at h
  unfold arctan2
  have hr := congrArg Complex.re h
  have hi := congrArg Complex.im h
  simp only [Complex.re_ofReal_mul, Complex.im_ofReal_mul, Complex.exp_ofReal_mul_I_re, Complex.exp_ofReal_mul_I_im] at hr hi
  exact ⟨hr, hi⟩

/-- The angle in turns, brought into `[0, 1)`, of a point given in polar coordinates. -/
theorem fract_arctan2 {ρ t : ℝ} (hρ : 0 < ρ) (ht : 0 ≤ t) (ht1 : t < 1) :
    Int.fract (arctan2 (ρ * sin (2 * π * t)) (ρ * cos (2 * π * t)) / (2 * π)) = t := by
  have hpi := Real.pi_pos
  have hc : (⟨ρ * cos (2 * π * t), ρ * sin (2 * π * t)⟩ : ℂ) = ρ * (Complex.cos (2 * π * t : ℝ) + Complex.sin (2 * π * t : ℝ) * Complex.I) := by
    rw [← Complex.ofReal_cos, ← Complex.ofReal_sin]
    generalize cos (2 * π * t) = a
    generalize sin (2 * π * t) = b
    apply Complex.ext <;> simp
  unfold arctan2
  by_cases h : t ≤ 1 / 2
  · rw [hc, Complex.arg_mul_cos_add_sin_mul_I hρ ⟨by nlinarith, by nlinarith⟩]
    rw [show 2 * π * t / (2 * π) = t by field_simp, Int.fract_eq_self.2 ⟨ht, ht1⟩]
  · push Not at h
    have e : (⟨ρ * cos (2 * π * t), ρ * sin (2 * π * t)⟩ : ℂ)
        = ρ * (Complex.cos (2 * π * (t - 1) : ℝ) + Complex.sin (2 * π * (t - 1) : ℝ) * Complex.I) := by
      rw [hc, show 2 * π * (t - 1) = 2 * π * t - 2 * π by ring]
      rw [← Complex.ofReal_cos, ← Complex.ofReal_sin, ← Complex.ofReal_cos, ← Complex.ofReal_sin, Real.cos_sub_two_pi, Real.sin_sub_two_pi]
    rw [e, Complex.arg_mul_cos_add_sin_mul_I hρ ⟨by nlinarith, by nlinarith⟩]
    rw [show 2 * π * (t - 1) / (2 * π) = t - 1 by field_simp]
    rw [Int.fract_sub_one, Int.fract_eq_self.2 ⟨ht, ht1⟩]

end Mrx
