import Verif.Props.Mappings
import Mathlib.Analysis.Calculus.Deriv.Prod
import Mathlib.Algebra.Ring.Periodic
import Mathlib.Algebra.BigOperators.Group.List.Basic
import Mathlib.Algebra.Order.BigOperators.Group.List

/-! # C63, C64, C69, C70: simple maps, the helical frame, the GVEC interface, the boundary fit -/

set_option linter.unusedSectionVars false
set_option linter.unusedVariables false

namespace Mrx.Props
open Mrx Spec Real Matrix

/-! ## C63: polar, cylinder, drum -/

/-- **C63** `drumshape_map` for a radius `a` differentiable at the angle: `det DF = 2π a(χ)² r`, whatever the slope of `a`. -/
theorem C63_drumshape_jacobian {a : ℝ → ℝ} {a' : ℝ} {x : V3} (ha : HasDerivAt a a' (x 1)) :
    jacobianDeterminant (drumshapeMap a) x = 2 * π * a (x 1) ^ 2 * x 0 := by
  obtain ⟨L, hL, l0, l1⟩ := hasFDerivAt_polarCos (c := 0) ha
  obtain ⟨M, hM, m0, m1⟩ := hasFDerivAt_polarSin ha
  have h := det_slab hL hM
  rw [l0, l1, m0, m1] at h
  have e : drumshapeMap a = fun y => ![0 + a (y 1) * y 0 * cos (2 * π * y 1), -y 2, a (y 1) * y 0 * sin (2 * π * y 1)] := by
    funext y; unfold drumshapeMap; simp
  rw [e, h]
  linear_combination (2 * π * a (x 1) ^ 2 * x 0) * (cos_sq_add_sin_sq (2 * π * x 1))

/-- **C63** `polar_map`: `det DF = 2π r`. -/
theorem C63_polar_jacobian (x : V3) : jacobianDeterminant polarMap x = 2 * π * x 0 := by
  have h := C63_drumshape_jacobian (hasDerivAt_const (x 1) (1 : ℝ))
  have e : polarMap = drumshapeMap fun _ => 1 := by funext y; unfold polarMap drumshapeMap; simp
  rw [e, h]; ring

/-- **C63** `cylinder_map`: `det DF = 2π a² h r`. -/
theorem C63_cylinder_jacobian (a h : ℝ) (x : V3) : jacobianDeterminant (cylinderMap a h) x = 2 * π * a ^ 2 * h * x 0 := by
  obtain ⟨L, hL, l0, l1⟩ := hasFDerivAt_polarCos (x := x) (c := 0) (hasDerivAt_const (x 1) a)
  obtain ⟨M, hM, m0, m1⟩ := hasFDerivAt_polarSin (x := x) (hasDerivAt_const (x 1) a)
  have hd := det_straight (h := h) hL hM
  rw [l0, l1, m0, m1] at hd
  have e : cylinderMap a h = fun y => ![0 + a * y 0 * cos (2 * π * y 1), a * y 0 * sin (2 * π * y 1), h * y 2] := by
    funext y; unfold cylinderMap; simp
  rw [e, hd]
  linear_combination (2 * π * a ^ 2 * h * x 0) * (cos_sq_add_sin_sq (2 * π * x 1))

/-- **C63** `drumshape_map_modified`: `det DF = (2π)² a(χ)² r R` with `R = R0 + a(χ) r cos 2πχ`. -/
theorem C63_drumshape_modified_jacobian {a : ℝ → ℝ} {a' R0 : ℝ} {x : V3} (ha : HasDerivAt a a' (x 1)) :
    jacobianDeterminant (drumshapeMapModified a R0) x
      = (2 * π) ^ 2 * a (x 1) ^ 2 * x 0 * (R0 + a (x 1) * x 0 * cos (2 * π * x 1)) := by
  obtain ⟨L, hL, l0, l1⟩ := hasFDerivAt_polarCos (c := R0) ha
  obtain ⟨M, hM, m0, m1⟩ := hasFDerivAt_polarSin ha
  have h := det_cylindrical (c := 2 * π) hL hM
  rw [l0, l1, m0, m1] at h
  have e : drumshapeMapModified a R0 = fun y => cylindrical (R0 + a (y 1) * y 0 * cos (2 * π * y 1)) (2 * π * y 2) (a (y 1) * y 0 * sin (2 * π * y 1)) := by
    funext y; unfold drumshapeMapModified cylindrical; simp
  rw [e, h]
  linear_combination ((2 * π) ^ 2 * a (x 1) ^ 2 * x 0 * (R0 + a (x 1) * x 0 * cos (2 * π * x 1))) * (cos_sq_add_sin_sq (2 * π * x 1))

/-- **C63** these maps are periodic in the poloidal angle (the drum shapes for a periodic radius), and the modified drum also in the
toroidal angle. -/
theorem C63_periodic (a h R0 : ℝ) (b : ℝ → ℝ) (hb : Function.Periodic b 1) :
    PeriodicIn 1 polarMap ∧ PeriodicIn 1 (cylinderMap a h) ∧ PeriodicIn 1 (drumshapeMap b)
      ∧ PeriodicIn 1 (drumshapeMapModified b R0) ∧ PeriodicIn 2 (drumshapeMapModified b R0) := by
  refine ⟨?_, ?_, ?_, ?_, ?_⟩ <;> intro x <;>
    simp only [polarMap, cylinderMap, drumshapeMap, drumshapeMapModified, add_single_same,
      add_single_ne x (show (0 : Fin 3) ≠ 1 by decide), add_single_ne x (show (2 : Fin 3) ≠ 1 by decide),
      add_single_ne x (show (0 : Fin 3) ≠ 2 by decide), add_single_ne x (show (1 : Fin 3) ≠ 2 by decide), (turn _).1, (turn _).2, hb _]

/-- **C63** the image of the unit disc: the straight maps send radius `r` to distance `r` (times the scale) from the axis. -/
theorem C63_cross_section (a h : ℝ) (b : ℝ → ℝ) (x : V3) :
    (polarMap x 0 ^ 2 + polarMap x 2 ^ 2 = x 0 ^ 2 ∧ polarMap x 1 = -x 2)
      ∧ (cylinderMap a h x 0 ^ 2 + cylinderMap a h x 1 ^ 2 = (a * x 0) ^ 2 ∧ cylinderMap a h x 2 = h * x 2)
      ∧ (drumshapeMap b x 0 ^ 2 + drumshapeMap b x 2 ^ 2 = (b (x 1) * x 0) ^ 2 ∧ drumshapeMap b x 1 = -x 2) := by
  have := cos_sq_add_sin_sq (2 * π * x 1)
  refine ⟨⟨?_, ?_⟩, ⟨?_, ?_⟩, ?_, ?_⟩ <;> simp [polarMap, cylinderMap, drumshapeMap]
  · linear_combination x 0 ^ 2 * this
  · linear_combination (a * x 0) ^ 2 * this
  · linear_combination (b (x 1) * x 0) ^ 2 * this

/-! ### The helical map -/

/-- Frame vectors and dot products of `V3`. -/
theorem norm3_eq_zero {v : V3} : norm3 v = 0 ↔ v = 0 := by
  unfold norm3
  rw [sqrt_eq_zero (by positivity)]
  constructor
  · intro h
    have h0 := sq_nonneg (v 0)
    have h1 := sq_nonneg (v 1)
    have h2 := sq_nonneg (v 2)
    ext i; fin_cases i
    · have : v 0 ^ 2 = 0 := by linarith
      simpa using this
    · have : v 1 ^ 2 = 0 := by linarith
      simpa using this
    · have : v 2 ^ 2 = 0 := by linarith
      simpa using this
  · rintro rfl; simp

theorem norm3_smul (c : ℝ) (v : V3) : norm3 (c • v) = |c| * norm3 v := by
  unfold norm3
  rw [← sqrt_sq_eq_abs, ← sqrt_mul (sq_nonneg c)]
  congr 1
  simp only [Pi.smul_apply, smul_eq_mul]
  ring

/-- The derivative of the axis. -/
noncomputable def helixX1 (A α n ζ : ℝ) : V3 :=
  ![-(A * (2 * π * n) * sin (2 * π * n * ζ + α)) * sin (2 * π * ζ) + (1 + A * cos (2 * π * n * ζ + α)) * (2 * π) * cos (2 * π * ζ),
    -(A * (2 * π * n) * sin (2 * π * n * ζ + α)) * cos (2 * π * ζ) - (1 + A * cos (2 * π * n * ζ + α)) * (2 * π) * sin (2 * π * ζ),
    A * (2 * π * n) * cos (2 * π * n * ζ + α)]

/-- The second derivative of the axis. -/
noncomputable def helixX2 (A α n ζ : ℝ) : V3 :=
  ![-(A * (2 * π * n) ^ 2 * cos (2 * π * n * ζ + α)) * sin (2 * π * ζ) - 2 * (A * (2 * π * n) * sin (2 * π * n * ζ + α)) * (2 * π) * cos (2 * π * ζ)
      - (1 + A * cos (2 * π * n * ζ + α)) * (2 * π) ^ 2 * sin (2 * π * ζ),
    -(A * (2 * π * n) ^ 2 * cos (2 * π * n * ζ + α)) * cos (2 * π * ζ) + 2 * (A * (2 * π * n) * sin (2 * π * n * ζ + α)) * (2 * π) * sin (2 * π * ζ)
      - (1 + A * cos (2 * π * n * ζ + α)) * (2 * π) ^ 2 * cos (2 * π * ζ),
    -(A * (2 * π * n) ^ 2 * sin (2 * π * n * ζ + α))]

theorem helix_deriv (h κ α n ζ : ℝ) : deriv (helixX h κ α n) ζ = helixX1 (κ * h) α n ζ := by
  have hφ : HasDerivAt (fun z : ℝ => 2 * π * z) (2 * π) ζ := by simpa using (hasDerivAt_id ζ).const_mul (2 * π)
  have hψ : HasDerivAt (fun z : ℝ => 2 * π * n * z + α) (2 * π * n) ζ := by
    simpa using ((hasDerivAt_id ζ).const_mul (2 * π * n)).add_const α
  apply HasDerivAt.deriv
  rw [hasDerivAt_pi]
  intro i
  fin_cases i
  · exact (((hψ.cos.const_mul (κ * h)).const_add 1).mul hφ.sin).congr_deriv (by simp [helixX1]; ring)
  · exact (((hψ.cos.const_mul (κ * h)).const_add 1).mul hφ.cos).congr_deriv (by simp [helixX1]; ring)
  · exact (hψ.sin.const_mul (κ * h)).congr_deriv (by simp [helixX1]; ring)

theorem helix_deriv2 (h κ α n ζ : ℝ) : deriv (deriv (helixX h κ α n)) ζ = helixX2 (κ * h) α n ζ := by
  have hφ : HasDerivAt (fun z : ℝ => 2 * π * z) (2 * π) ζ := by simpa using (hasDerivAt_id ζ).const_mul (2 * π)
  have hψ : HasDerivAt (fun z : ℝ => 2 * π * n * z + α) (2 * π * n) ζ := by
    simpa using ((hasDerivAt_id ζ).const_mul (2 * π * n)).add_const α
  rw [show deriv (helixX h κ α n) = helixX1 (κ * h) α n from funext (helix_deriv h κ α n)]
  apply HasDerivAt.deriv
  rw [hasDerivAt_pi]
  intro i
  have hs := (hψ.sin.const_mul (κ * h * (2 * π * n))).neg
  have hc := ((hψ.cos.const_mul (κ * h)).const_add 1).mul_const (2 * π)
  fin_cases i
  · exact ((hs.mul hφ.sin).add (hc.mul hφ.cos)).congr_deriv (by simp [helixX2]; ring)
  · exact ((hs.mul hφ.cos).sub (hc.mul hφ.sin)).congr_deriv (by simp [helixX2]; ring)
  · exact (hψ.cos.const_mul (κ * h * (2 * π * n))).congr_deriv (by simp [helixX2]; ring)

theorem helix_dot (A α n ζ : ℝ) : helixX1 A α n ζ ⬝ᵥ helixX2 A α n ζ
    = -(2 * π) ^ 3 * n * A * sin (2 * π * n * ζ + α) * (1 + A * cos (2 * π * n * ζ + α)) := by
  simp only [dotProduct, Fin.sum_univ_three, helixX1, helixX2, cons_val_zero, cons_val_one, cons_val_two, tail_cons, head_cons]
  generalize sin (2 * π * n * ζ + α) = s
  generalize cos (2 * π * n * ζ + α) = c
  linear_combination ((2 * π) ^ 3 * n ^ 3 * A ^ 2 * s * c - (2 * π) ^ 3 * n * A * s * (1 + A * c)) * (cos_sq_add_sin_sq (2 * π * ζ))

/-- **C63 (finding)** the vectors `τ`, `ν1`, `ν2` that `helical_map` computes are not a Frenet frame: the "first normal vector" is
orthogonal to the tangent only where `sin(2π nfp ζ + α) = 0` (for a nonplanar axis, `0 < |κh| < 1`). -/
theorem C63_helical_frame_not_orthogonal {h κ α nfp ζ : ℝ} (hA : κ * h ≠ 0) (hA1 : |κ * h| < 1) (hn : nfp ≠ 0) :
    helixTau h κ α nfp ζ ⬝ᵥ helixNu1 h κ α nfp ζ = 0 ↔ sin (2 * π * nfp * ζ + α) = 0 := by
  have hpi := Real.pi_ne_zero
  have hne : 1 + κ * h * cos (2 * π * nfp * ζ + α) ≠ 0 := by
    have h1 : |κ * h * cos (2 * π * nfp * ζ + α)| < 1 := by
      rw [abs_mul]; exact lt_of_le_of_lt (mul_le_of_le_one_right (abs_nonneg _) (abs_cos_le_one _)) hA1
    have := (abs_lt.1 h1).1
    linarith
  have key : helixX1 (κ * h) α nfp ζ ⬝ᵥ helixX2 (κ * h) α nfp ζ = 0 ↔ sin (2 * π * nfp * ζ + α) = 0 := by
    rw [helix_dot]
    simp [hA, hn, hpi, hne]
  unfold helixTau helixNu1
  simp only [helix_deriv, helix_deriv2, norm3_smul]
  rw [← key]
  simp only [smul_dotProduct, dotProduct_smul, smul_eq_mul, mul_eq_zero, inv_eq_zero, norm3_eq_zero, abs_eq_zero]
  constructor
  · intro hh
    by_cases z1 : helixX1 (κ * h) α nfp ζ = 0
    · rw [z1]; simp
    · by_cases z2 : helixX2 (κ * h) α nfp ζ = 0
      · rw [z2]; simp
      · tauto
  · intro h1; tauto

/-- **C63** what does hold of the frame: where both derivatives of the axis are nonzero the vectors `τ` and `ν1` have length one, and
`ν2` is orthogonal to both. -/
theorem C63_helical_frame (h κ α nfp ζ : ℝ) :
    (deriv (helixX h κ α nfp) ζ ≠ 0 → norm3 (helixTau h κ α nfp ζ) = 1)
      ∧ (deriv (deriv (helixX h κ α nfp)) ζ ≠ 0 → norm3 (helixNu1 h κ α nfp ζ) = 1)
      ∧ helixNu2 h κ α nfp ζ ⬝ᵥ helixTau h κ α nfp ζ = 0 ∧ helixNu2 h κ α nfp ζ ⬝ᵥ helixNu1 h κ α nfp ζ = 0 := by
  have unit : ∀ v : V3, v ≠ 0 → norm3 ((norm3 v)⁻¹ • v) = 1 := by
    intro v hv
    have : norm3 v ≠ 0 := fun h0 => hv (norm3_eq_zero.1 h0)
    have hp : 0 ≤ norm3 v := sqrt_nonneg _
    rw [norm3_smul, abs_of_nonneg (by positivity), inv_mul_cancel₀ this]
  refine ⟨fun hne => unit _ hne, ?_, ?_, ?_⟩
  · intro hne
    unfold helixNu1
    apply unit
    intro h0
    have := unit _ hne
    rw [h0] at this
    rw [norm3_eq_zero.2 rfl] at this
    exact zero_ne_one this
  · unfold helixNu2; rw [dotProduct_comm]; exact dot_self_cross _ _
  · unfold helixNu2; rw [dotProduct_comm]; exact dot_cross_self _ _

/-- **C63** the helical map is periodic in the poloidal angle, and in `ζ` for an integer number of field periods; the axis `r = 0` is
the helix. -/
theorem C63_helical_periodic (ε h κ α nfp : ℝ) : PeriodicIn 1 (helicalMap ε h κ α nfp)
    ∧ (∀ k : Int, nfp = k → PeriodicIn 2 (helicalMap ε h κ α nfp))
    ∧ ∀ x : V3, x 0 = 0 → helicalMap ε h κ α nfp x = helixX h κ α nfp (x 2) := by
  refine ⟨?_, ?_, ?_⟩
  · intro x
    unfold helicalMap
    simp only [add_single_same, add_single_ne x (show (0 : Fin 3) ≠ 1 by decide), add_single_ne x (show (2 : Fin 3) ≠ 1 by decide),
      (turn _).1, (turn _).2]
  · rintro k rfl x
    have hc : ∀ z : ℝ, cos (2 * π * k * (z + 1) + α) = cos (2 * π * k * z + α) ∧ sin (2 * π * k * (z + 1) + α) = sin (2 * π * k * z + α) := by
      intro z
      rw [show 2 * π * k * (z + 1) + α = 2 * π * k * z + α + k * (2 * π) by ring]
      exact ⟨cos_add_int_mul_two_pi _ _, sin_add_int_mul_two_pi _ _⟩
    have p0 : ∀ z, helixX h κ α k (z + 1) = helixX h κ α k z := by
      intro z; unfold helixX; rw [(hc z).1, (hc z).2, (turn z).1, (turn z).2]
    have p1 : ∀ z, helixX1 (κ * h) α k (z + 1) = helixX1 (κ * h) α k z := by
      intro z; unfold helixX1; rw [(hc z).1, (hc z).2, (turn z).1, (turn z).2]
    have p2 : ∀ z, helixX2 (κ * h) α k (z + 1) = helixX2 (κ * h) α k z := by
      intro z; unfold helixX2; rw [(hc z).1, (hc z).2, (turn z).1, (turn z).2]
    unfold helicalMap helixNu2 helixTau helixNu1
    simp only [add_single_same, add_single_ne x (show (0 : Fin 3) ≠ 2 by decide), add_single_ne x (show (1 : Fin 3) ≠ 2 by decide),
      helix_deriv, helix_deriv2, p0, p1, p2]
  · intro x hx
    unfold helicalMap
    simp [hx]

/-- With the default parameters and at `ζ = 1/12` the frame is not orthogonal. -/
example : helixTau 0.25 1.2 0 3 (1 / 12) ⬝ᵥ helixNu1 0.25 1.2 0 3 (1 / 12) ≠ 0 := by
  rw [Ne, C63_helical_frame_not_orthogonal (by norm_num) (by rw [abs_of_pos] <;> norm_num) (by norm_num)]
  rw [show 2 * π * 3 * (1 / 12) + 0 = π / 2 by ring, sin_pi_div_two]
  exact one_ne_zero

/-! ## C64: the GVEC interface -/

/-- **C64** at the logical coordinates of the grid point `(ρ, θ, ζ)` the stellarator map built from coordinate functions that reproduce
`X1` and `X2` has the right radius and height, and the toroidal angle **`ζ / 2`**. -/
theorem C64_grid_point {nfp ρ θ ζ X1 X2 : ℝ} (hn : nfp ≠ 0) (X1h X2h : V3 → Fin 1 → ℝ) (h1 : X1h (gvecPoint nfp ρ θ ζ) 0 = X1)
    (h2 : X2h (gvecPoint nfp ρ θ ζ) 0 = X2) :
    gvecStellaratorMap X1h X2h nfp (gvecPoint nfp ρ θ ζ) = cylindrical X1 (ζ / 2) X2 := by
  have hpi := Real.pi_ne_zero
  unfold gvecStellaratorMap cylindrical
  simp only [h1, h2]
  have : π / nfp * gvecPoint nfp ρ θ ζ 2 = ζ / 2 := by
    simp only [gvecPoint, cons_val_two, tail_cons, head_cons]
    field_simp
  rw [this]

/-- **C64 (finding)** hence no grid point with a positive radius and `0 < ζ < 4π` keeps its Cartesian position `(X1, ζ, X2)`. -/
theorem C64_position_lost {nfp ρ θ ζ X1 X2 : ℝ} (hn : nfp ≠ 0) (X1h X2h : V3 → Fin 1 → ℝ) (h1 : X1h (gvecPoint nfp ρ θ ζ) 0 = X1)
    (h2 : X2h (gvecPoint nfp ρ θ ζ) 0 = X2) (hX : 0 < X1) (hζ : 0 < ζ) (hζ4 : ζ < 4 * π) :
    gvecStellaratorMap X1h X2h nfp (gvecPoint nfp ρ θ ζ) ≠ cylindrical X1 ζ X2 := by
  rw [C64_grid_point hn X1h X2h h1 h2]
  intro h
  have e0 := congrFun h 0
  have e1 := congrFun h 1
  simp only [cylindrical, cons_val_zero, cons_val_one] at e0 e1
  have c : cos (ζ / 2) = cos ζ := mul_left_cancel₀ hX.ne' e0
  have s : sin (ζ / 2) = sin ζ := by
    have := mul_left_cancel₀ (neg_ne_zero.2 hX.ne') e1
    exact this
  have one : cos (ζ / 2) = 1 := by
    have := cos_sub ζ (ζ / 2)
    rw [show ζ - ζ / 2 = ζ / 2 by ring, c, s] at this
    rw [c, this]
    have := sin_sq_add_cos_sq ζ
    nlinarith
  have hpi := Real.pi_pos
  rw [cos_eq_one_iff_of_lt_of_lt (by linarith) (by linarith)] at one
  linarith

/-- **C64** what is reproduced: the major radius and the height of every grid point, and the position for `ζ = 0`. -/
theorem C64_grid_point_radius {nfp ρ θ ζ X1 X2 : ℝ} (hn : nfp ≠ 0) (X1h X2h : V3 → Fin 1 → ℝ)
    (h1 : X1h (gvecPoint nfp ρ θ ζ) 0 = X1) (h2 : X2h (gvecPoint nfp ρ θ ζ) 0 = X2) (hX : 0 ≤ X1) :
    majorRadius (gvecStellaratorMap X1h X2h nfp (gvecPoint nfp ρ θ ζ)) = X1
      ∧ gvecStellaratorMap X1h X2h nfp (gvecPoint nfp ρ θ ζ) 2 = X2
      ∧ (ζ = 0 → gvecStellaratorMap X1h X2h nfp (gvecPoint nfp ρ θ ζ) = cylindrical X1 ζ X2) := by
  rw [C64_grid_point hn X1h X2h h1 h2]
  refine ⟨majorRadius_cylindrical hX, rfl, ?_⟩
  rintro rfl
  simp

/-- **C64 (finding)** one unit of the logical `ζ` is half of the field-period angle `2π / nfp`: for coordinate functions that are
periodic in `ζ` the image is rotated by `π / nfp`. -/
theorem C64_half_period {nfp : ℝ} (X1h X2h : V3 → Fin 1 → ℝ) (hp1 : PeriodicIn 2 X1h) (hp2 : PeriodicIn 2 X2h) (x : V3) :
    gvecStellaratorMap X1h X2h nfp (x + Pi.single 2 1) = rotate (π / nfp) (gvecStellaratorMap X1h X2h nfp x) := by
  have e : ∀ y, gvecStellaratorMap X1h X2h nfp y = cylindrical (X1h y 0) (π / nfp * y 2) (X2h y 0) := fun _ => rfl
  rw [e, e, rotate_cylindrical, hp1 x, hp2 x, add_single_same]
  congr 1
  ring

/-- **C64** the logical coordinates of the grid: points with `0 ≤ θ < 2π`, `0 ≤ ζ < 2π / nfp` have logical angles in `[0, 1)`, and
different grid points have different logical coordinates. -/
theorem C64_logical_points {nfp : ℝ} (hn : 0 < nfp) (ρ θ ζ : ℝ) (hθ : 0 ≤ θ ∧ θ < 2 * π) (hζ : 0 ≤ ζ ∧ ζ < 2 * π / nfp) :
    gvecPoint nfp ρ θ ζ 0 = ρ ∧ (0 ≤ gvecPoint nfp ρ θ ζ 1 ∧ gvecPoint nfp ρ θ ζ 1 < 1)
      ∧ (0 ≤ gvecPoint nfp ρ θ ζ 2 ∧ gvecPoint nfp ρ θ ζ 2 < 1)
      ∧ ∀ ρ' θ' ζ', gvecPoint nfp ρ' θ' ζ' = gvecPoint nfp ρ θ ζ → ρ' = ρ ∧ θ' = θ ∧ ζ' = ζ := by
  have hpi := Real.pi_pos
  obtain ⟨t0, t1⟩ := hθ
  obtain ⟨z0, z1⟩ := hζ
  simp only [gvecPoint, cons_val_zero, cons_val_one, cons_val_two, tail_cons, head_cons, true_and]
  refine ⟨⟨by positivity, by rw [div_lt_one (by positivity)]; exact t1⟩, ⟨by positivity, ?_⟩, ?_⟩
  · rw [lt_div_iff₀ hn] at z1
    rw [div_mul_eq_mul_div, div_lt_one (by positivity)]; exact z1
  · intro ρ' θ' ζ' he
    have e0 := congrFun he 0
    have e1 := congrFun he 1
    have e2 := congrFun he 2
    simp only [cons_val_zero, cons_val_one, cons_val_two, tail_cons, head_cons] at e0 e1 e2
    refine ⟨e0, ?_, ?_⟩
    · field_simp at e1; exact e1
    · field_simp at e2; exact e2

example : gvecStellaratorMap (fun _ _ => 1) (fun _ _ => 0) 3 (gvecPoint 3 0.5 0 (π / 3)) ≠ cylindrical 1 (π / 3) 0 := by
  have hpi := Real.pi_pos
  exact C64_position_lost (by norm_num) _ _ rfl rfl one_pos (by positivity) (by linarith)

/-! ## C70: the interpolation points of the magnetic field -/

/-- **C70 (finding)** `exclude_axis_tol` has no effect on the set of interpolation points. -/
theorem C70_tolerance_ignored (tol tol' : ℝ) (pt : V3) : gvecValid tol pt = gvecValid tol' pt := rfl

/-- **C70** with the default tolerance `1e-3` the set is the documented one: the points with `tol < ρ < 1 − tol`. -/
theorem C70_valid_points (pt : V3) : gvecValid 1e-3 pt = true ↔ (1e-3 < pt 0 ∧ pt 0 < 1 - 1e-3) := by
  simp [gvecValid]

/-- **C70 (finding)** so for every other tolerance below one half there are points that are wrongly kept or wrongly dropped. -/
theorem C70_wrong_points {tol : ℝ} (h0 : 0 ≤ tol) (h1 : tol < 1 / 2) (hne : tol ≠ 1e-3) :
    ∃ pt : V3, ¬(gvecValid tol pt = true ↔ (tol < pt 0 ∧ pt 0 < 1 - tol)) := by
  rcases lt_or_gt_of_ne hne with h | h
  · refine ⟨fun _ => 1e-3, ?_⟩
    simp only [gvecValid, decide_eq_true_eq]
    intro hh
    have := hh.2 ⟨h, by norm_num at h ⊢; linarith⟩
    exact absurd this.1 (lt_irrefl _)
  · refine ⟨fun _ => tol, ?_⟩
    simp only [gvecValid, decide_eq_true_eq]
    intro hh
    have := hh.1 ⟨h, by norm_num at h ⊢; linarith⟩
    exact absurd this.1 (lt_irrefl _)

/-! ## C69: the fit of the last closed flux surface -/

/-- **C69** the loss is nonnegative for nonnegative quadrature weights, and for positive weights it is zero exactly when the fitted curve
lies on the flux surface through `(R0 + aR, 0)` at every quadrature point. -/
theorem C69_loss (R0 k0 q0 aR : ℝ) (a : ℝ → ℝ) (Q : List (ℝ × ℝ)) (hw : ∀ q ∈ Q, 0 < q.2) :
    0 ≤ lcfsLoss R0 k0 q0 aR a Q
      ∧ (lcfsLoss R0 k0 q0 aR a Q = 0 ↔
          ∀ q ∈ Q, lcfsPsi0 R0 k0 q0 (R0 + a q.1 * cos (2 * π * q.1)) (a q.1 * sin (2 * π * q.1)) = lcfsPsi0 R0 k0 q0 (R0 + aR) 0) := by
  unfold lcfsLoss
  have hnn : ∀ y ∈ Q.map (fun q => q.2 * lcfsPsi R0 k0 q0 aR (R0 + a q.1 * cos (2 * π * q.1)) (a q.1 * sin (2 * π * q.1)) ^ 2), 0 ≤ y := by
    intro y hy
    obtain ⟨q, hq, rfl⟩ := List.mem_map.1 hy
    have := hw q hq
    positivity
  refine ⟨List.sum_nonneg hnn, ?_⟩
  have hz : (Q.map (fun q => q.2 * lcfsPsi R0 k0 q0 aR (R0 + a q.1 * cos (2 * π * q.1)) (a q.1 * sin (2 * π * q.1)) ^ 2)).sum = 0
      ↔ ∀ y ∈ Q.map (fun q => q.2 * lcfsPsi R0 k0 q0 aR (R0 + a q.1 * cos (2 * π * q.1)) (a q.1 * sin (2 * π * q.1)) ^ 2), y = 0 := by
    generalize Q.map (fun q => q.2 * lcfsPsi R0 k0 q0 aR (R0 + a q.1 * cos (2 * π * q.1)) (a q.1 * sin (2 * π * q.1)) ^ 2) = l at hnn
    clear hw
    induction l with
    | nil => simp
    | cons y l ih =>
      have hy := hnn y (by simp)
      have hl := List.sum_nonneg fun z hz => hnn z (List.mem_cons_of_mem _ hz)
      have ih' := ih fun z hz => hnn z (List.mem_cons_of_mem _ hz)
      simp only [List.sum_cons, List.forall_mem_cons]
      rw [← ih']
      constructor
      · intro hs; constructor <;> linarith
      · rintro ⟨h1, h2⟩; linarith
  simp only at hz ⊢
  rw [hz]
  constructor
  · intro h q hq
    have := h _ (List.mem_map_of_mem hq)
    have hq0 := (hw q hq).ne'
    simp only [mul_eq_zero, hq0, false_or, sq_eq_zero_iff] at this
    unfold lcfsPsi at this
    linarith
  · intro h y hy
    obtain ⟨q, hq, rfl⟩ := List.mem_map.1 hy
    unfold lcfsPsi
    rw [h q hq]; simp

/-- **C69** the flux function is zero exactly on the magnetic axis `(±R0, 0)` (and on the axis of symmetry only if `R0 = 0`), and positive
elsewhere for positive parameters; it is symmetric about the midplane. -/
theorem C69_flux {R0 k0 q0 : ℝ} (hR : R0 ≠ 0) (hk : 0 < k0) (hq : 0 < q0) (R Z : ℝ) :
    0 ≤ lcfsPsi0 R0 k0 q0 R Z ∧ (lcfsPsi0 R0 k0 q0 R Z = 0 ↔ R ^ 2 = R0 ^ 2 ∧ Z = 0) ∧ lcfsPsi0 R0 k0 q0 R (-Z) = lcfsPsi0 R0 k0 q0 R Z := by
  have hd : 0 < 2 * R0 ^ 2 * k0 * q0 := by positivity
  unfold lcfsPsi0
  refine ⟨by positivity, ?_, by ring⟩
  rw [div_eq_zero_iff, or_iff_left hd.ne']
  constructor
  · intro h
    have h1 : 0 ≤ k0 ^ 2 / 4 * (R ^ 2 - R0 ^ 2) ^ 2 := by positivity
    have h2 : 0 ≤ R ^ 2 * Z ^ 2 := by positivity
    have z1 : k0 ^ 2 / 4 * (R ^ 2 - R0 ^ 2) ^ 2 = 0 := by linarith
    have z2 : R ^ 2 * Z ^ 2 = 0 := by linarith
    have e : R ^ 2 = R0 ^ 2 := by
      rcases mul_eq_zero.1 z1 with h | h
      · exfalso; have : 0 < k0 ^ 2 / 4 := by positivity
        linarith
      · have := pow_eq_zero_iff (two_ne_zero) |>.1 h
        linarith
    refine ⟨e, ?_⟩
    rw [e] at z2
    rcases mul_eq_zero.1 z2 with h | h
    · exact absurd (pow_eq_zero_iff two_ne_zero |>.1 h) hR
    · exact pow_eq_zero_iff two_ne_zero |>.1 h
  · rintro ⟨e, rfl⟩
    rw [e]; ring

/-- **C69** the resulting map puts the flux surface `r = 1` on the fitted curve: its points at the angle `χ` have major radius
`R0 + a(χ) cos 2πχ` and height `a(χ) sin 2πχ`. -/
theorem C69_boundary (a : ℝ → ℝ) (R0 χ z : ℝ) :
    drumshapeMapModified a R0 ![1, χ, z] = cylindrical (R0 + a χ * cos (2 * π * χ)) (2 * π * z) (a χ * sin (2 * π * χ)) := by
  unfold drumshapeMapModified cylindrical
  simp

example : lcfsLoss 1 1 1 0.5 (fun _ => 0.5) [(0, 1)] = 0 := by
  refine (C69_loss 1 1 1 0.5 (fun _ => 0.5) [(0, 1)] (by simp)).2.2 ?_
  intro q hq
  rw [List.mem_singleton.1 hq]
  simp

/-- Cases: a boundary curve that is not a circle, a grid point, a tolerance other than the default. -/
example (x : V3) := C63_drumshape_jacobian (a := fun t => 2 + sin (2 * π * t)) (x := x)
  (((hasDerivAt_id (x 1)).const_mul (2 * π)).sin.const_add 2)
example (x : V3) := C63_drumshape_modified_jacobian (R0 := 5) (a := fun t => 2 + sin (2 * π * t)) (x := x)
  (((hasDerivAt_id (x 1)).const_mul (2 * π)).sin.const_add 2)
example := C63_periodic 1 2 3 (fun t => 2 + sin (2 * π * t)) (fun t => by
  show 2 + sin (2 * π * (t + 1)) = 2 + sin (2 * π * t)
  rw [mul_add, mul_one, sin_add_two_pi])
example := C63_helical_frame_not_orthogonal (h := 1 / 4) (κ := 1.2) (α := 0) (nfp := 3) (ζ := 1 / 10) (by norm_num) (by norm_num [abs_of_pos]) (by norm_num)
example := C64_grid_point (nfp := 3) (ρ := 1 / 2) (θ := 1) (ζ := 1) (by norm_num) (fun _ _ => 5) (fun _ _ => 2) rfl rfl
example := C64_grid_point_radius (nfp := 3) (ρ := 1 / 2) (θ := 1) (ζ := 1) (by norm_num) (fun _ _ => 5) (fun _ _ => 2) rfl rfl (by norm_num)
example := C64_half_period (nfp := 3) (fun x _ => 5 + cos (2 * π * x 2)) (fun x _ => sin (2 * π * x 2))
  (fun x => by
    funext i
    show 5 + cos (2 * π * (x 2 + (Pi.single 2 1 : V3) 2)) = _
    rw [Pi.single_eq_same, mul_add, mul_one, cos_add_two_pi])
  (fun x => by
    funext i
    show sin (2 * π * (x 2 + (Pi.single 2 1 : V3) 2)) = _
    rw [Pi.single_eq_same, mul_add, mul_one, sin_add_two_pi])
example := C70_wrong_points (tol := 1 / 10) (by norm_num) (by norm_num) (by norm_num)
example := C69_flux (R0 := 1) (k0 := 1.7) (q0 := 1.5) (by norm_num) (by norm_num) (by norm_num)

end Mrx.Props
