import Verif.Proofs.Maps
import Mathlib.Tactic.FieldSimp
import Mathlib.Tactic.Positivity
import Mathlib.Tactic.Linarith
import Mathlib.Analysis.Real.Pi.Bounds

/-! # C59–C62: toroidal maps

`det DF` is `jacobianDeterminant`, the determinant of the matrix of partial derivatives (C24). Coordinate 0 is the radius `r`,
coordinate 1 the poloidal angle and coordinate 2 the toroidal angle, both in turns. -/

set_option linter.unusedSectionVars false
set_option linter.unusedVariables false

namespace Mrx.Props
open Mrx Spec Real

theorem add_single_same (x : V3) (j : Fin 3) : (x + (Pi.single j 1 : V3)) j = x j + 1 := by simp

theorem add_single_ne (x : V3) {j i : Fin 3} (h : i ≠ j) : (x + (Pi.single j 1 : V3)) i = x i := by simp [h]

theorem turn (t : ℝ) : cos (2 * π * (t + 1)) = cos (2 * π * t) ∧ sin (2 * π * (t + 1)) = sin (2 * π * t) := by
  rw [show 2 * π * (t + 1) = 2 * π * t + 2 * π by ring]
  exact ⟨cos_add_two_pi _, sin_add_two_pi _⟩

/-! ## C59: `toroid_map` -/

/-- **C59** the toroidal map puts the point at the major radius `R0 + ε r cos 2πθ`, the toroidal angle `2πζ` and the height
`ε κ r sin 2πθ`. -/
theorem C59_closed_form (ε κ R0 : ℝ) (x : V3) :
    toroidMap ε κ R0 x = cylindrical (R0 + ε * x 0 * cos (2 * π * x 1)) (2 * π * x 2) (ε * κ * x 0 * sin (2 * π * x 1)) := rfl

/-- **C59** periodic in both angles. -/
theorem C59_periodic (ε κ R0 : ℝ) : PeriodicIn 1 (toroidMap ε κ R0) ∧ PeriodicIn 2 (toroidMap ε κ R0) := by
  constructor <;> intro x <;> unfold toroidMap <;>
    simp only [add_single_same, add_single_ne x (show (0 : Fin 3) ≠ 1 by decide), add_single_ne x (show (2 : Fin 3) ≠ 1 by decide),
      add_single_ne x (show (0 : Fin 3) ≠ 2 by decide), add_single_ne x (show (1 : Fin 3) ≠ 2 by decide), (turn _).1, (turn _).2]

/-- **C59** the Jacobian determinant: `det DF = (2π)² ε² κ r R` with `R = R0 + ε r cos 2πθ`. -/
theorem C59_jacobian (ε κ R0 : ℝ) (x : V3) :
    jacobianDeterminant (toroidMap ε κ R0) x = (2 * π) ^ 2 * ε ^ 2 * κ * x 0 * (R0 + ε * x 0 * cos (2 * π * x 1)) := by
  have h1 := (((coord_hasFDerivAt 0 x).const_mul ε).mul ((coord_hasFDerivAt 1 x).const_mul (2 * π)).cos).const_add R0
  have h2 := ((coord_hasFDerivAt 0 x).const_mul (ε * κ)).mul ((coord_hasFDerivAt 1 x).const_mul (2 * π)).sin
  have h := det_cylindrical (c := 2 * π) h1 h2
  refine Eq.trans h ?_
  simp
  linear_combination ((2 * π) ^ 2 * ε ^ 2 * κ * x 0 * (R0 + ε * x 0 * cos (2 * π * x 1))) * (cos_sq_add_sin_sq (2 * π * x 1))

theorem radius_pos {ε R0 r t : ℝ} (hr : 0 ≤ r) (h : |ε| * r < R0) : 0 < R0 + ε * r * cos t := by
  have : |ε * r * cos t| ≤ |ε| * r := by
    rw [abs_mul, abs_mul, abs_of_nonneg hr]
    exact mul_le_of_le_one_right (by positivity) (abs_cos_le_one t)
  have := (abs_le.1 this).1
  linarith

/-- **C59** the determinant is positive off the axis as long as the torus does not reach the axis of symmetry. -/
theorem C59_jacobian_pos {ε κ R0 : ℝ} {x : V3} (hε : ε ≠ 0) (hκ : 0 < κ) (hr : 0 < x 0) (hR : |ε| * x 0 < R0) :
    0 < jacobianDeterminant (toroidMap ε κ R0) x := by
  rw [C59_jacobian]
  have := radius_pos (t := 2 * π * x 1) hr.le hR
  have : 0 < ε ^ 2 := by positivity
  positivity

/-- **C59** it vanishes exactly on the axis `r = 0`. -/
theorem C59_degenerate_iff {ε κ R0 : ℝ} {x : V3} (hε : ε ≠ 0) (hκ : κ ≠ 0) (hr : 0 ≤ x 0) (hR : |ε| * x 0 < R0) :
    jacobianDeterminant (toroidMap ε κ R0) x = 0 ↔ x 0 = 0 := by
  rw [C59_jacobian]
  have := (radius_pos (t := 2 * π * x 1) hr hR).ne'
  have := Real.pi_ne_zero
  simp_all

example := C59_degenerate_iff (ε := 1 / 3) (κ := 1) (R0 := 1) (x := ![0.5, 0.25, 0.7]) (by norm_num) (by norm_num) (by norm_num) (by norm_num [abs_of_pos])

/-- **C59** the axis is a single point of each poloidal plane. -/
theorem C59_axis (ε κ R0 : ℝ) (x : V3) (h : x 0 = 0) : toroidMap ε κ R0 x = cylindrical R0 (2 * π * x 2) 0 := by
  rw [C59_closed_form, h]; simp

example : 0 < jacobianDeterminant (toroidMap (1 / 3) 1 1) ![1, 0.25, 0.7] :=
  C59_jacobian_pos (by norm_num) (by norm_num) (by simp) (by norm_num [abs_of_pos])

/-! ## C60: `approx_inverse_map` -/

theorem majorRadius_cylindrical {R φ Z : ℝ} (hR : 0 ≤ R) : √ ((cylindrical R φ Z) 0 ^ 2 + (cylindrical R φ Z) 1 ^ 2) = R := by
  simp only [cylindrical, Matrix.cons_val_zero, Matrix.cons_val_one]
  rw [show (R * cos φ) ^ 2 + (-R * sin φ) ^ 2 = R ^ 2 * (cos φ ^ 2 + sin φ ^ 2) by ring, cos_sq_add_sin_sq, mul_one, sqrt_sq hR]

/-- **C60** the approximate inverse returns the logical coordinates of every point of the circular torus off the axis. -/
theorem C60_left_inverse {ε R0 : ℝ} {x : V3} (hε : 0 < ε) (hr : 0 < x 0) (hR : ε * x 0 < R0)
    (hθ : 0 ≤ x 1 ∧ x 1 < 1) (hζ : 0 ≤ x 2 ∧ x 2 < 1) : approxInverseMap (toroidMap ε 1 R0 x) ε R0 = x := by
  have hRp := radius_pos (ε := ε) (t := 2 * π * x 1) hr.le (by rwa [abs_of_pos hε])
  obtain ⟨R, hRe⟩ : ∃ R, R = R0 + ε * x 0 * cos (2 * π * x 1) := ⟨_, rfl⟩
  have e0 := majorRadius_cylindrical (φ := 2 * π * x 2) (Z := ε * 1 * x 0 * sin (2 * π * x 1)) hRp.le
  rw [C59_closed_form]
  rw [← hRe] at e0 hRp ⊢
  unfold approxInverseMap
  simp only [e0]
  have er : √ (((R - R0) / ε) ^ 2 + ((cylindrical R (2 * π * x 2) (ε * 1 * x 0 * sin (2 * π * x 1))) 2 / ε) ^ 2) = x 0 := by
    have : ((R - R0) / ε) ^ 2 + ((cylindrical R (2 * π * x 2) (ε * 1 * x 0 * sin (2 * π * x 1))) 2 / ε) ^ 2 = x 0 ^ 2 := by
      rw [hRe]
      simp only [cylindrical, Matrix.cons_val_two, Matrix.tail_cons, Matrix.head_cons]
      field_simp
      linear_combination (ε ^ 2 * x 0 ^ 2) * (cos_sq_add_sin_sq (2 * π * x 1))
    rw [this, sqrt_sq hr.le]
  simp only [er]
  have a1 : (cylindrical R (2 * π * x 2) (ε * 1 * x 0 * sin (2 * π * x 1))) 2 / (ε * x 0) = 1 * sin (2 * π * x 1) := by
    simp only [cylindrical, Matrix.cons_val_two, Matrix.tail_cons, Matrix.head_cons]
    field_simp
  have a2 : (R - R0) / (ε * x 0) = 1 * cos (2 * π * x 1) := by
    rw [hRe]; field_simp; ring
  rw [a1, a2, fract_arctan2 one_pos hθ.1 hθ.2]
  have b1 : -(cylindrical R (2 * π * x 2) (ε * 1 * x 0 * sin (2 * π * x 1))) 1 = R * sin (2 * π * x 2) := by
    simp [cylindrical]
  have b2 : (cylindrical R (2 * π * x 2) (ε * 1 * x 0 * sin (2 * π * x 1))) 0 = R * cos (2 * π * x 2) := by
    simp [cylindrical]
  rw [b1, b2, fract_arctan2 hRp hζ.1 hζ.2]
  ext i
  fin_cases i <;> rfl

theorem two_pi_fract (a : ℝ) : cos (2 * π * Int.fract (a / (2 * π))) = cos a ∧ sin (2 * π * Int.fract (a / (2 * π))) = sin a := by
  have : 2 * π * Int.fract (a / (2 * π)) = a - (⌊a / (2 * π)⌋ : ℤ) * (2 * π) := by
    unfold Int.fract
    have := Real.pi_ne_zero
    field_simp
  rw [this]
  exact ⟨cos_sub_int_mul_two_pi _ _, sin_sub_int_mul_two_pi _ _⟩

/-- **C60** conversely the circular toroidal map takes the coordinates returned for any point `y` off the axis back to `y`. -/
theorem C60_right_inverse {ε R0 : ℝ} (hε : 0 < ε) (y : V3) (hy : ¬(majorRadius y = R0 ∧ y 2 = 0)) :
    toroidMap ε 1 R0 (approxInverseMap y ε R0) = y := by
  obtain ⟨R, hR⟩ : ∃ R, R = √ (y 0 ^ 2 + y 1 ^ 2) := ⟨_, rfl⟩
  obtain ⟨r, hr⟩ : ∃ r, r = √ (((R - R0) / ε) ^ 2 + (y 2 / ε) ^ 2) := ⟨_, rfl⟩
  have hrp : 0 < r := by
    rw [hr]
    apply sqrt_pos.2
    by_contra hn
    push Not at hn
    have h1 := sq_nonneg ((R - R0) / ε)
    have h2 := sq_nonneg (y 2 / ε)
    have z1 : ((R - R0) / ε) ^ 2 = 0 := by linarith
    have z2 : (y 2 / ε) ^ 2 = 0 := by linarith
    rw [sq_eq_zero_iff, div_eq_zero_iff] at z1 z2
    apply hy
    refine ⟨?_, z2.resolve_right hε.ne'⟩
    have := z1.resolve_right hε.ne'
    unfold majorRadius
    rw [← hR]; linarith
  have hr2 : r ^ 2 = ((R - R0) / ε) ^ 2 + (y 2 / ε) ^ 2 := by rw [hr]; exact sq_sqrt (by positivity)
  unfold toroidMap approxInverseMap
  simp only [← hR, ← hr, Matrix.cons_val_zero, Matrix.cons_val_one, Matrix.cons_val_two, Matrix.tail_cons, Matrix.head_cons,
    (two_pi_fract _).1, (two_pi_fract _).2]
  obtain ⟨c1, s1⟩ := arctan2_polar (y 2 / (ε * r)) ((R - R0) / (ε * r))
  have hone : √ (((R - R0) / (ε * r)) ^ 2 + (y 2 / (ε * r)) ^ 2) = 1 := by
    rw [show ((R - R0) / (ε * r)) ^ 2 + (y 2 / (ε * r)) ^ 2 = (((R - R0) / ε) ^ 2 + (y 2 / ε) ^ 2) / r ^ 2 by field_simp, ← hr2,
      div_self (by positivity), sqrt_one]
  rw [hone, one_mul] at c1 s1
  rw [c1, s1]
  obtain ⟨c2, s2⟩ := arctan2_polar (-y 1) (y 0)
  rw [show y 0 ^ 2 + (-y 1) ^ 2 = y 0 ^ 2 + y 1 ^ 2 by ring, ← hR] at c2 s2
  have e1 : R0 + ε * r * ((R - R0) / (ε * r)) = R := by field_simp; ring
  rw [e1]
  ext i
  fin_cases i
  · exact c2
  · simp only [Fin.mk_one, Matrix.cons_val_one, Matrix.cons_val_zero]; linarith
  · simp only [Fin.reduceFinMk, Matrix.cons_val]; field_simp

example := C60_right_inverse (ε := 1 / 3) (R0 := 1) (by norm_num) ![1, 0, 1 / 10] (by rintro ⟨_, h⟩; norm_num [Matrix.cons_val_two] at h)

/-- **C60** hence the toroidal map (of any elongation) is injective off the axis. -/
theorem C60_injective {ε κ R0 : ℝ} {x x' : V3} (hε : 0 < ε) (hκ : κ ≠ 0) (hr : 0 < x 0) (hR : ε * x 0 < R0) (hr' : 0 < x' 0)
    (hR' : ε * x' 0 < R0) (hθ : 0 ≤ x 1 ∧ x 1 < 1) (hζ : 0 ≤ x 2 ∧ x 2 < 1) (hθ' : 0 ≤ x' 1 ∧ x' 1 < 1) (hζ' : 0 ≤ x' 2 ∧ x' 2 < 1)
    (h : toroidMap ε κ R0 x = toroidMap ε κ R0 x') : x = x' := by
  have key : ∀ x : V3, toroidMap ε 1 R0 x = ![toroidMap ε κ R0 x 0, toroidMap ε κ R0 x 1, toroidMap ε κ R0 x 2 / κ] := by
    intro x
    ext i; fin_cases i
    · rfl
    · rfl
    · simp [toroidMap]; field_simp
  have : toroidMap ε 1 R0 x = toroidMap ε 1 R0 x' := by rw [key x, key x', h]
  rw [← C60_left_inverse hε hr hR hθ hζ, this, C60_left_inverse hε hr' hR' hθ' hζ']

example (x : V3) := C60_injective (ε := 1 / 3) (κ := 1) (R0 := 1) (x := ![0.5, 0.75, 0.9]) (x' := ![0.5, 0.75, 0.9]) (by norm_num) (by norm_num) (by norm_num) (by norm_num) (by norm_num)
  (by norm_num) (by norm_num) (by norm_num [Matrix.cons_val_two]) (by norm_num) (by norm_num [Matrix.cons_val_two]) rfl

/-- **C60** for an elongated torus the returned radius is `r √(cos² 2πθ + κ² sin² 2πθ)`, so the inverse is only approximate, while
the toroidal angle is still exact. -/
theorem C60_elongated {ε κ R0 : ℝ} {x : V3} (hε : 0 < ε) (hr : 0 < x 0) (hR : ε * x 0 < R0) (hζ : 0 ≤ x 2 ∧ x 2 < 1) :
    approxInverseMap (toroidMap ε κ R0 x) ε R0 0 = x 0 * √ (cos (2 * π * x 1) ^ 2 + κ ^ 2 * sin (2 * π * x 1) ^ 2)
      ∧ approxInverseMap (toroidMap ε κ R0 x) ε R0 2 = x 2 := by
  have hRp := radius_pos (ε := ε) (t := 2 * π * x 1) hr.le (by rwa [abs_of_pos hε])
  obtain ⟨R, hRe⟩ : ∃ R, R = R0 + ε * x 0 * cos (2 * π * x 1) := ⟨_, rfl⟩
  have e0 := majorRadius_cylindrical (φ := 2 * π * x 2) (Z := ε * κ * x 0 * sin (2 * π * x 1)) hRp.le
  rw [C59_closed_form]
  rw [← hRe] at e0 hRp ⊢
  unfold approxInverseMap
  simp only [e0, Matrix.cons_val_zero, Matrix.cons_val_two, Matrix.tail_cons, Matrix.head_cons]
  constructor
  · have : ((R - R0) / ε) ^ 2 + ((cylindrical R (2 * π * x 2) (ε * κ * x 0 * sin (2 * π * x 1))) 2 / ε) ^ 2
        = x 0 ^ 2 * (cos (2 * π * x 1) ^ 2 + κ ^ 2 * sin (2 * π * x 1) ^ 2) := by
      rw [hRe]
      simp only [cylindrical, Matrix.cons_val_two, Matrix.tail_cons, Matrix.head_cons]
      field_simp
      ring
    rw [this, sqrt_mul (by positivity), sqrt_sq hr.le]
  · have b1 : -(cylindrical R (2 * π * x 2) (ε * κ * x 0 * sin (2 * π * x 1))) 1 = R * sin (2 * π * x 2) := by simp [cylindrical]
    have b2 : (cylindrical R (2 * π * x 2) (ε * κ * x 0 * sin (2 * π * x 1))) 0 = R * cos (2 * π * x 2) := by simp [cylindrical]
    rw [b1, b2, fract_arctan2 hRp hζ.1 hζ.2]

example : approxInverseMap (toroidMap (1 / 3) 1 1 ![0.5, 0.75, 0.9]) (1 / 3) 1 = ![0.5, 0.75, 0.9] :=
  C60_left_inverse (by norm_num) (by norm_num) (by norm_num) (by norm_num) (by norm_num [Matrix.cons_val_two])

/-! ## C61: `cerfon_map` -/

theorem cerfon_radius (ε κ α t : ℝ) : cerfonA ε κ α t * cos (cerfonS κ α t) = |ε| * cos (2 * π * t + α * sin (2 * π * t))
    ∧ cerfonA ε κ α t * sin (cerfonS κ α t) = |ε| * (κ * sin (2 * π * t)) := by
  have hA : cerfonA ε κ α t = |ε| * √ (cos (2 * π * t + α * sin (2 * π * t)) ^ 2 + (κ * sin (2 * π * t)) ^ 2) := by
    unfold cerfonA cerfonXt cerfonYt
    rw [show (1 + ε * cos (2 * π * t + α * sin (2 * π * t)) - 1) ^ 2 + (ε * κ * sin (2 * π * t)) ^ 2
      = ε ^ 2 * (cos (2 * π * t + α * sin (2 * π * t)) ^ 2 + (κ * sin (2 * π * t)) ^ 2) by ring, sqrt_mul (sq_nonneg _), sqrt_sq_eq_abs]
  have hs : cos (cerfonS κ α t) = cos (cerfonS0 κ α t) ∧ sin (cerfonS κ α t) = sin (cerfonS0 κ α t) := by
    unfold cerfonS; split
    · exact ⟨cos_add_two_pi _, sin_add_two_pi _⟩
    · exact ⟨rfl, rfl⟩
  obtain ⟨c, s⟩ := arctan2_polar (κ * sin (2 * π * t)) (cos (2 * π * t + α * sin (2 * π * t)))
  rw [hs.1, hs.2, hA]
  unfold cerfonS0
  constructor
  · linear_combination |ε| * c
  · linear_combination |ε| * s

/-- **C61** the closed form of the map for every sign of `ε`: major radius `R0 + |ε| r cos(2πt + α sin 2πt)`, height `|ε| κ r sin 2πt`. -/
theorem C61_closed_form_abs (ε κ α R0 : ℝ) (x : V3) :
    cerfonMap ε κ α R0 x
      = cylindrical (R0 + x 0 * |ε| * cos (2 * π * x 1 + α * sin (2 * π * x 1))) (2 * π * x 2) (x 0 * |ε| * κ * sin (2 * π * x 1)) := by
  obtain ⟨c, s⟩ := cerfon_radius ε κ α (x 1)
  have c' : cerfonA ε κ α (x 1) * x 0 * cos (cerfonS κ α (x 1)) = x 0 * |ε| * cos (2 * π * x 1 + α * sin (2 * π * x 1)) := by
    linear_combination (x 0) * c
  have s' : cerfonA ε κ α (x 1) * x 0 * sin (cerfonS κ α (x 1)) = x 0 * |ε| * κ * sin (2 * π * x 1) := by
    linear_combination (x 0) * s
  unfold cerfonMap cylindrical
  simp only [c', s']

/-- **C61** the documented closed form, for `ε ≥ 0`. -/
theorem C61_closed_form {ε : ℝ} (hε : 0 ≤ ε) (κ α R0 : ℝ) (x : V3) :
    cerfonMap ε κ α R0 x
      = cylindrical (R0 + x 0 * ε * cos (2 * π * x 1 + α * sin (2 * π * x 1))) (2 * π * x 2) (x 0 * ε * κ * sin (2 * π * x 1)) := by
  rw [C61_closed_form_abs, abs_of_nonneg hε]

/-- **C61** periodic in both angles. -/
theorem C61_periodic (ε κ α R0 : ℝ) : PeriodicIn 1 (cerfonMap ε κ α R0) ∧ PeriodicIn 2 (cerfonMap ε κ α R0) := by
  constructor <;> intro x <;> rw [C61_closed_form_abs, C61_closed_form_abs]
  · rw [add_single_same, add_single_ne x (show (0 : Fin 3) ≠ 1 by decide), add_single_ne x (show (2 : Fin 3) ≠ 1 by decide), (turn _).2,
      show 2 * π * (x 1 + 1) + α * sin (2 * π * x 1) = (2 * π * x 1 + α * sin (2 * π * x 1)) + 2 * π by ring, cos_add_two_pi]
  · rw [add_single_same, add_single_ne x (show (0 : Fin 3) ≠ 2 by decide), add_single_ne x (show (1 : Fin 3) ≠ 2 by decide)]
    unfold cylindrical
    rw [(turn _).1, (turn _).2]

/-- **C61** single valued on the axis. -/
theorem C61_axis (ε κ α R0 : ℝ) (x : V3) (h : x 0 = 0) : cerfonMap ε κ α R0 x = cylindrical R0 (2 * π * x 2) 0 := by
  rw [C61_closed_form_abs, h]; simp

/-- **C61** without the phase `α` it is the elongated torus. -/
theorem C61_no_phase {ε : ℝ} (hε : 0 ≤ ε) (κ R0 : ℝ) : cerfonMap ε κ 0 R0 = toroidMap ε κ R0 := by
  funext x
  rw [C61_closed_form hε, C59_closed_form]
  congr 1
  · rw [show 2 * π * x 1 + 0 * sin (2 * π * x 1) = 2 * π * x 1 by ring]; ring
  · ring

/-- **C61** the Jacobian determinant. -/
theorem C61_jacobian (ε κ α R0 : ℝ) (x : V3) :
    jacobianDeterminant (cerfonMap ε κ α R0) x
      = (2 * π) ^ 2 * ε ^ 2 * κ * x 0 * (R0 + x 0 * |ε| * cos (2 * π * x 1 + α * sin (2 * π * x 1)))
        * (cos (2 * π * x 1 + α * sin (2 * π * x 1)) * cos (2 * π * x 1)
            + (1 + α * cos (2 * π * x 1)) * (sin (2 * π * x 1 + α * sin (2 * π * x 1)) * sin (2 * π * x 1))) := by
  have hθ := (coord_hasFDerivAt 1 x).const_mul (2 * π)
  have h1 := (((coord_hasFDerivAt 0 x).mul_const |ε|).mul (hθ.add (hθ.sin.const_mul α)).cos).const_add R0
  have h2 := (((coord_hasFDerivAt 0 x).mul_const |ε|).mul_const κ).mul hθ.sin
  have h := det_cylindrical (c := 2 * π) h1 h2
  rw [show cerfonMap ε κ α R0 = _ from funext (C61_closed_form_abs ε κ α R0)]
  refine Eq.trans h ?_
  simp
  rw [← sq_abs ε]
  ring

/-- **C61** and it is positive off the axis when `|α| ≤ 1`, `κ > 0` and the torus does not reach the axis of symmetry. -/
theorem C61_jacobian_pos {ε κ α R0 : ℝ} {x : V3} (hε : ε ≠ 0) (hκ : 0 < κ) (hα : |α| ≤ 1) (hr : 0 < x 0) (hR : |ε| * x 0 < R0) :
    0 < jacobianDeterminant (cerfonMap ε κ α R0) x := by
  rw [C61_jacobian]
  have hp : 0 < R0 + x 0 * |ε| * cos (2 * π * x 1 + α * sin (2 * π * x 1)) := by
    have := radius_pos (ε := |ε|) (t := 2 * π * x 1 + α * sin (2 * π * x 1)) hr.le (by rwa [abs_abs])
    linarith [this, mul_comm (x 0) |ε|]
  obtain ⟨T, hT⟩ : ∃ T, T = 2 * π * x 1 := ⟨_, rfl⟩
  obtain ⟨β, hβ⟩ : ∃ β, β = α * sin T := ⟨_, rfl⟩
  rw [← hT] at hp ⊢
  rw [← hβ] at hp ⊢
  have hβ1 : |β| ≤ 1 := by
    rw [hβ, abs_mul]; exact mul_le_one₀ hα (abs_nonneg _) (abs_sin_le_one _)
  have hpi := Real.pi_gt_three
  have hc : 0 < cos β := cos_pos_of_mem_Ioo ⟨by linarith [(abs_le.1 hβ1).1], by linarith [(abs_le.1 hβ1).2]⟩
  have hbs : 0 ≤ β * sin β := by
    rcases le_total 0 β with h | h
    · exact mul_nonneg h (sin_nonneg_of_nonneg_of_le_pi h (by linarith [(abs_le.1 hβ1).2]))
    · exact mul_nonneg_of_nonpos_of_nonpos h (sin_nonpos_of_nonpos_of_neg_pi_le h (by linarith [(abs_le.1 hβ1).1]))
  have hsc : |sin T * cos T| ≤ 1 / 2 := by
    rw [abs_le]; constructor <;> nlinarith [sq_nonneg (sin T + cos T), sq_nonneg (sin T - cos T), sin_sq_add_cos_sq T]
  have hlt : 0 < 1 + β * (sin T * cos T) := by
    have : |β * (sin T * cos T)| ≤ 1 / 2 := by
      rw [abs_mul]
      calc |β| * |sin T * cos T| ≤ 1 * (1 / 2) := mul_le_mul hβ1 hsc (abs_nonneg _) zero_le_one
        _ = 1 / 2 := one_mul _
    linarith [(abs_le.1 this).1]
  have hfac : cos (T + β) * cos T + (1 + α * cos T) * (sin (T + β) * sin T)
      = cos β * (1 + β * (sin T * cos T)) + β * sin β * cos T ^ 2 := by
    rw [cos_add, sin_add]
    rw [hβ]
    linear_combination (cos (α * sin T)) * (sin_sq_add_cos_sq T)
  rw [hfac]
  have : 0 < ε ^ 2 := by positivity
  have : 0 < cos β * (1 + β * (sin T * cos T)) + β * sin β * cos T ^ 2 := by positivity
  positivity

example : 0 < jacobianDeterminant (cerfonMap 0.33 1.2 0.3 1) ![1, 0.6, 0.1] :=
  C61_jacobian_pos (by norm_num) (by norm_num) (by norm_num [abs_of_pos]) (by norm_num) (by norm_num [abs_of_pos])

/-! ## C62: `rotating_ellipse_map` -/

/-- **C62** the map is constructed exactly when `nfp` and `eps` are positive; otherwise `ValueError` is raised. -/
theorem C62_raises (eps κ : ℝ) (nfp : Int) :
    (∃ m, rotatingEllipseMap eps κ nfp = .error m) ↔ (nfp ≤ 0 ∨ eps ≤ 0) := by
  unfold rotatingEllipseMap
  split_ifs with h1 h2
  · exact ⟨fun _ => .inl h1, fun _ => ⟨_, rfl⟩⟩
  · exact ⟨fun _ => .inr h2, fun _ => ⟨_, rfl⟩⟩
  · constructor
    · rintro ⟨m, hm⟩; cases hm
    · rintro (h | h)
      · exact absurd h h1
      · exact absurd h h2

theorem ellipseNu_shift (κ : ℝ) {nfp : Int} (h : 0 < nfp) (z : ℝ) :
    ellipseNu κ nfp (z / nfp + 0.5 / nfp) = 1 - (1 - κ) * cos (2 * π * z) ∧ ellipseNu κ nfp (z / nfp) = 1 + (1 - κ) * cos (2 * π * z) := by
  have hn : (nfp : ℝ) ≠ 0 := by exact_mod_cast h.ne'
  unfold ellipseNu
  constructor
  · rw [show 2 * π * (z / nfp + 0.5 / nfp) * nfp = 2 * π * z + π by field_simp; ring, cos_add_pi]; ring
  · rw [show 2 * π * (z / nfp) * nfp = 2 * π * z by field_simp]

/-- **C62** the closed form: an ellipse with half axes `eps (1 ± (1 − κ) cos 2πζ) r`, rotating once per field period. -/
theorem C62_closed_form {eps κ : ℝ} {nfp : Int} {F : V3 → V3} (h : rotatingEllipseMap eps κ nfp = .ok F) (x : V3) :
    F x = cylindrical (1 + eps * (1 + (1 - κ) * cos (2 * π * x 2)) * x 0 * cos (2 * π * x 1)) (2 * π * x 2 / nfp)
      (eps * (1 - (1 - κ) * cos (2 * π * x 2)) * x 0 * sin (2 * π * x 1)) := by
  unfold rotatingEllipseMap at h
  split_ifs at h with h1 h2
  have hn : 0 < nfp := by omega
  injection h with h
  subst h
  unfold rotatingEllipseF cylindrical
  obtain ⟨e1, e2⟩ := ellipseNu_shift κ hn (x 2)
  simp only [gt_iff_lt, hn, if_true, e1, e2]
  rw [show 2 * π * (x 2 / (nfp : ℝ)) = 2 * π * x 2 / nfp by ring]
  congr 3
  ring_nf

/-- **C62** periodic in the poloidal angle. -/
theorem C62_periodic {eps κ : ℝ} {nfp : Int} {F : V3 → V3} (h : rotatingEllipseMap eps κ nfp = .ok F) : PeriodicIn 1 F := by
  intro x
  rw [C62_closed_form h, C62_closed_form h, add_single_same, add_single_ne x (show (0 : Fin 3) ≠ 1 by decide),
    add_single_ne x (show (2 : Fin 3) ≠ 1 by decide), (turn _).1, (turn _).2]

theorem rotate_cylindrical (R φ Z ψ : ℝ) : rotate ψ (cylindrical R φ Z) = cylindrical R (φ + ψ) Z := by
  unfold rotate cylindrical
  ext i; fin_cases i
  · simp [cos_add]; ring
  · simp [sin_add]; ring
  · rfl

/-- **C62** advancing `ζ` by one unit rotates the image by the field-period angle `2π / nfp`. -/
theorem C62_field_period {eps κ : ℝ} {nfp : Int} {F : V3 → V3} (h : rotatingEllipseMap eps κ nfp = .ok F) (x : V3) :
    F (x + Pi.single 2 1) = rotate (2 * π / nfp) (F x) := by
  have hn : (nfp : ℝ) ≠ 0 := by
    unfold rotatingEllipseMap at h
    split_ifs at h with h1 h2
    have : nfp ≠ 0 := by omega
    exact_mod_cast this
  rw [C62_closed_form h, C62_closed_form h, rotate_cylindrical, add_single_same, add_single_ne x (show (0 : Fin 3) ≠ 2 by decide),
    add_single_ne x (show (1 : Fin 3) ≠ 2 by decide), (turn _).1]
  congr 1
  field_simp

/-- **C62** the map repeats after `nfp` units of `ζ`. -/
theorem C62_full_turn {eps κ : ℝ} {nfp : Int} {F : V3 → V3} (h : rotatingEllipseMap eps κ nfp = .ok F) (x : V3) :
    F (x + (Pi.single 2 (nfp : ℝ) : V3)) = F x := by
  have hn : (nfp : ℝ) ≠ 0 := by
    unfold rotatingEllipseMap at h
    split_ifs at h with h1 h2
    have : nfp ≠ 0 := by omega
    exact_mod_cast this
  rw [C62_closed_form h, C62_closed_form h]
  have e0 : (x + (Pi.single 2 (nfp : ℝ) : V3)) 0 = x 0 := by simp
  have e1 : (x + (Pi.single 2 (nfp : ℝ) : V3)) 1 = x 1 := by simp
  have e2 : (x + (Pi.single 2 (nfp : ℝ) : V3)) 2 = x 2 + nfp := by simp
  rw [e0, e1, e2, show 2 * π * (x 2 + nfp) = 2 * π * x 2 + nfp * (2 * π) by ring, cos_add_int_mul_two_pi]
  unfold cylindrical
  rw [show (2 * π * x 2 + nfp * (2 * π)) / (nfp : ℝ) = 2 * π * x 2 / nfp + 2 * π by field_simp, cos_add_two_pi, sin_add_two_pi]

/-- **C62** the Jacobian determinant. -/
theorem C62_jacobian {eps κ : ℝ} {nfp : Int} {F : V3 → V3} (h : rotatingEllipseMap eps κ nfp = .ok F) (x : V3) :
    jacobianDeterminant F x = (2 * π) ^ 2 / nfp * eps ^ 2 * x 0
      * (1 + eps * (1 + (1 - κ) * cos (2 * π * x 2)) * x 0 * cos (2 * π * x 1)) * (1 - (1 - κ) ^ 2 * cos (2 * π * x 2) ^ 2) := by
  have hz := (((coord_hasFDerivAt 2 x).const_mul (2 * π)).cos).const_mul (1 - κ)
  have hθ := (coord_hasFDerivAt 1 x).const_mul (2 * π)
  have h1 := ((((hz.const_add 1).const_mul eps).mul (coord_hasFDerivAt 0 x)).mul hθ.cos).const_add 1
  have h2 := (((hz.const_sub 1).const_mul eps).mul (coord_hasFDerivAt 0 x)).mul hθ.sin
  have hd := det_cylindrical (c := 2 * π / nfp) h1 h2
  have hF : F = fun y => cylindrical (1 + eps * (1 + (1 - κ) * cos (2 * π * y 2)) * y 0 * cos (2 * π * y 1)) (2 * π / nfp * y 2)
      (eps * (1 - (1 - κ) * cos (2 * π * y 2)) * y 0 * sin (2 * π * y 1)) := by
    funext y
    rw [C62_closed_form h, show 2 * π * y 2 / (nfp : ℝ) = 2 * π / nfp * y 2 by ring]
  rw [hF]
  refine Eq.trans hd ?_
  simp
  obtain ⟨c, hc⟩ : ∃ c, c = cos (2 * π * x 2) := ⟨_, rfl⟩
  simp only [← hc]
  linear_combination ((2 * π) ^ 2 / nfp * eps ^ 2 * x 0 * (1 + eps * (1 + (1 - κ) * c) * x 0 * cos (2 * π * x 1)) * (1 - (1 - κ) ^ 2 * c ^ 2)) * (cos_sq_add_sin_sq (2 * π * x 1))

/-- **C62** the determinant is positive off the axis for elongations between 0 and 2 and a thin enough torus. -/
theorem C62_jacobian_pos {eps κ : ℝ} {nfp : Int} {F : V3 → V3} (h : rotatingEllipseMap eps κ nfp = .ok F) {x : V3} (hκ : 0 < κ)
    (hκ2 : κ < 2) (hr : 0 < x 0) (hR : eps * (1 + |1 - κ|) * x 0 < 1) : 0 < jacobianDeterminant F x := by
  have hpos : 0 < nfp ∧ 0 < eps := by
    unfold rotatingEllipseMap at h
    split_ifs at h with h1 h2
    exact ⟨by omega, not_le.1 h2⟩
  rw [C62_jacobian h]
  have hn : (0 : ℝ) < nfp := by exact_mod_cast hpos.1
  have he := hpos.2
  have habs : |1 - κ| < 1 := abs_lt.2 ⟨by linarith, by linarith⟩
  have hcz := abs_cos_le_one (2 * π * x 2)
  have hq : |(1 - κ) * cos (2 * π * x 2)| ≤ |1 - κ| := by
    rw [abs_mul]; exact mul_le_of_le_one_right (abs_nonneg _) hcz
  have h3 : 0 < 1 - (1 - κ) ^ 2 * cos (2 * π * x 2) ^ 2 := by
    have : ((1 - κ) * cos (2 * π * x 2)) ^ 2 < 1 := by
      rw [sq_lt_one_iff_abs_lt_one]; linarith
    rw [mul_pow] at this; linarith
  have h4 : 0 < 1 + eps * (1 + (1 - κ) * cos (2 * π * x 2)) * x 0 * cos (2 * π * x 1) := by
    have hnn : 0 ≤ 1 + (1 - κ) * cos (2 * π * x 2) := by linarith [(abs_le.1 hq).1]
    have : |eps * (1 + (1 - κ) * cos (2 * π * x 2)) * x 0| < 1 := by
      rw [abs_of_nonneg (by positivity)]
      refine lt_of_le_of_lt ?_ hR
      gcongr
      exact le_trans (le_abs_self _) hq
    have h5 : |eps * (1 + (1 - κ) * cos (2 * π * x 2)) * x 0 * cos (2 * π * x 1)| < 1 := by
      rw [abs_mul]
      exact lt_of_le_of_lt (mul_le_of_le_one_right (abs_nonneg _) (abs_cos_le_one _)) this
    linarith [(abs_lt.1 h5).1]
  positivity

/-- **C62** for elongation 2 or more (or 0 or less) the map degenerates on whole surfaces: there is a `ζ` at which `det DF = 0` for
all `r` and `θ`. -/
theorem C62_degenerate {eps κ : ℝ} {nfp : Int} {F : V3 → V3} (h : rotatingEllipseMap eps κ nfp = .ok F) (hκ : κ ≤ 0 ∨ 2 ≤ κ) :
    ∃ ζ, 0 ≤ ζ ∧ ζ ≤ 1 ∧ ∀ r θ, jacobianDeterminant F ![r, θ, ζ] = 0 := by
  have hk : 1 ≤ |1 - κ| := by
    rcases hκ with hκ | hκ
    · rw [abs_of_nonneg (by linarith)]; linarith
    · rw [abs_of_nonpos (by linarith)]; linarith
  have hpi := Real.pi_pos
  have hk0 : (0 : ℝ) < |1 - κ| := by linarith
  refine ⟨arccos (1 / |1 - κ|) / (2 * π), by have := arccos_nonneg (1 / |1 - κ|); positivity, ?_, ?_⟩
  · rw [div_le_one (by positivity)]; have := arccos_le_pi (1 / |1 - κ|); linarith
  · intro r θ
    rw [C62_jacobian h]
    simp only [Matrix.cons_val]
    rw [show 2 * π * (arccos (1 / |1 - κ|) / (2 * π)) = arccos (1 / |1 - κ|) by field_simp,
      cos_arccos (by have : (0 : ℝ) ≤ 1 / |1 - κ| := by positivity
                     linarith) (by rw [div_le_one hk0]; exact hk)]
    rw [div_pow, one_pow, sq_abs]
    have : (1 - κ) ^ 2 ≠ 0 := by rw [← sq_abs]; positivity
    rw [mul_one_div_cancel this]
    simp

example : ∃ F, rotatingEllipseMap 0.33 1.2 3 = .ok F ∧ 0 < jacobianDeterminant F ![1, 0.3, 0.2] := by
  have : rotatingEllipseMap 0.33 1.2 3 = .ok (rotatingEllipseF 0.33 1.2 3) := by
    unfold rotatingEllipseMap
    rw [if_neg (by norm_num), if_neg (by norm_num)]
  refine ⟨_, this, C62_jacobian_pos this (by norm_num) (by norm_num) (by norm_num) ?_⟩
  rw [abs_of_neg (by norm_num)]
  norm_num

theorem case_ellipse : ∃ F, rotatingEllipseMap 0.33 1.2 3 = .ok F := by
  refine ⟨rotatingEllipseF 0.33 1.2 3, ?_⟩
  unfold rotatingEllipseMap
  rw [if_neg (by norm_num), if_neg (by norm_num)]

/-- Cases of the theorems of C62: the script's parameters. -/
example := C62_closed_form case_ellipse.choose_spec
example := C62_periodic case_ellipse.choose_spec
example := C62_field_period case_ellipse.choose_spec
example := C62_full_turn case_ellipse.choose_spec
example := C62_jacobian case_ellipse.choose_spec

end Mrx.Props
