import Verif.Model.Manufactured
import Verif.Proofs.Laplacian
import Verif.Proofs.Maps
import Verif.Props.Mappings
import Mathlib.Analysis.SpecialFunctions.Log.Deriv
import Mathlib.Analysis.SpecialFunctions.Trigonometric.Deriv

/-!
# C84: the manufactured solutions of the tutorials

For each Poisson problem of the scripts: there is a function `U` on physical space whose pullback by the map is the script's `u`, and whose
negative Laplacian is the script's `f`, at every point off the axis (where the logical coordinates are singular).
-/

set_option linter.unusedVariables false

namespace Mrx.Props
open Mrx Spec Manufactured Real Topology

theorem rho_polar (x : V3) (h : 0 < x 0) : rho 0 2 (polarMap x) = x 0 := by
  have e : (polarMap x) 0 ^ 2 + (polarMap x) 2 ^ 2 = x 0 ^ 2 := by
    simp only [polarMap, Matrix.cons_val_zero, Matrix.cons_val]
    linear_combination x 0 ^ 2 * cos_sq_add_sin_sq (2 * π * x 1)
  unfold rho
  rw [e, sqrt_sq h.le]

theorem d_const (c x : ℝ) : HasDerivAt (fun _ : ℝ => c) 0 x := hasDerivAt_const _ _

/-- **C84** `scripts/tutorials/polar_poisson.py`: `u` is a solution of `-ΔU = f` on the disc with `u = 0` on its boundary. -/
theorem C84_polar : ∃ U : V3 → ℝ, (∀ x, 0 < x 0 → U (polarMap x) = polarU x) ∧
    (∀ x, 0 < x 0 → HasLaplacian U (-polarF x) (polarMap x)) ∧ ∀ x, x 0 = 1 → polarU x = 0 := by
  have hP : Profile (fun r _ => r ^ 3 * (3 * log r - 2) / 27 + 2 / 27) (fun r _ => r ^ 2 * (9 * log r - 3) / 27)
      (fun r _ => (2 * r * (9 * log r - 3) + 9 * r) / 27) (fun _ _ => 0) (fun _ _ => 0) := by
    refine ⟨fun r w hr => ?_, fun r w hr => ?_, fun r w hr => d_const _ _, fun r w hr => d_const _ _⟩
    · have h1 := ((hasDerivAt_pow 3 r).mul (((hasDerivAt_log hr.ne').const_mul 3).sub_const 2)).div_const 27
      have h2 := h1.add_const (2 / 27 : ℝ)
      refine h2.congr_deriv ?_
      simp only [Nat.reduceSub, Nat.cast_ofNat, pow_one, mul_one, Pi.mul_apply, Pi.pow_apply, Pi.sub_apply, Pi.add_apply]
      field_simp
      ring
    · have h1 := ((hasDerivAt_pow 2 r).mul (((hasDerivAt_log hr.ne').const_mul 9).sub_const 3)).div_const 27
      refine h1.congr_deriv ?_
      simp only [Nat.reduceSub, Nat.cast_ofNat, pow_one, mul_one, Pi.mul_apply, Pi.pow_apply, Pi.sub_apply, Pi.add_apply]
      field_simp
  refine ⟨fun y => rho 0 2 y ^ 3 * (3 * log (rho 0 2 y) - 2) / 27 + 2 / 27, fun x hx => ?_, fun x hx => ?_, fun x hx => ?_⟩
  · beta_reduce
    rw [rho_polar x hx, polarU]; ring
  · have := hP.laplacian (i := 0) (j := 2) (k := 1) (y := polarMap x) (by decide) (by decide) (by decide) (by rw [rho_polar x hx]; exact hx)
    rw [rho_polar x hx] at this
    convert this using 1
    unfold polarF
    field_simp
    ring
  · unfold polarU; rw [hx]; simp; norm_num

/-- **C84** `scripts/tutorials/mixed_polar_poisson.py`: `u` is a solution of `-ΔU = f`, with `u = 0` and `∂u/∂r = 0` on the boundary. The
formula in the comments has the wrong sign of the constant: it is not zero on the boundary. -/
theorem C84_mixed : (∃ U : V3 → ℝ, (∀ x, 0 < x 0 → U (polarMap x) = mixedU x) ∧
    ∀ x, 0 < x 0 → HasLaplacian U (-mixedF x) (polarMap x)) ∧ (∀ x, x 0 = 1 → mixedU x = 0) ∧
    (∀ θ z, HasDerivAt (fun r => mixedU ![r, θ, z]) 0 1) ∧ ∀ x, x 0 = 1 → mixedUDocumented x = 1 / 24 := by
  have hP : Profile (fun r _ => -(r ^ 4 / 16 - r ^ 3 / 12 + 1 / 48)) (fun r _ => -(r ^ 3 / 4 - r ^ 2 / 4))
      (fun r _ => -(3 * r ^ 2 / 4 - r / 2)) (fun _ _ => 0) (fun _ _ => 0) := by
    refine ⟨fun r w hr => ?_, fun r w hr => ?_, fun r w hr => d_const _ _, fun r w hr => d_const _ _⟩
    · have h1 := ((((hasDerivAt_pow 4 r).div_const 16).sub ((hasDerivAt_pow 3 r).div_const 12)).add_const (1 / 48 : ℝ)).neg
      refine h1.congr_deriv ?_
      simp only [Nat.reduceSub, Nat.cast_ofNat, pow_one, mul_one, Pi.mul_apply, Pi.pow_apply, Pi.sub_apply, Pi.add_apply]
      ring
    · have h1 := (((hasDerivAt_pow 3 r).div_const 4).sub ((hasDerivAt_pow 2 r).div_const 4)).neg
      refine h1.congr_deriv ?_
      simp only [Nat.reduceSub, Nat.cast_ofNat, pow_one, mul_one, Pi.mul_apply, Pi.pow_apply, Pi.sub_apply, Pi.add_apply]
      ring
  refine ⟨⟨fun y => -(rho 0 2 y ^ 4 / 16 - rho 0 2 y ^ 3 / 12 + 1 / 48), fun x hx => ?_, fun x hx => ?_⟩, fun x hx => ?_, fun θ z => ?_,
    fun x hx => ?_⟩
  · beta_reduce
    rw [rho_polar x hx, mixedU]; ring
  · have := hP.laplacian (i := 0) (j := 2) (k := 1) (y := polarMap x) (by decide) (by decide) (by decide) (by rw [rho_polar x hx]; exact hx)
    rw [rho_polar x hx] at this
    convert this using 1
    unfold mixedF
    field_simp
    ring
  · unfold mixedU; rw [hx]; norm_num
  · have h1 := hP.r 1 0 one_pos
    have e : (fun r => mixedU ![r, θ, z]) = fun r => -(r ^ 4 / 16 - r ^ 3 / 12 + 1 / 48) := by
      funext r; simp [mixedU]
    rw [e]
    convert h1 using 1
    norm_num
  · unfold mixedUDocumented; rw [hx]; norm_num

/-! ## The torus -/

/-- The profile `c (S - S²) / ρ` with `S = ((ρ - R0)² + w²) / ε²`. -/
noncomputable def torusK (c ε R0 ρ w : ℝ) : ℝ :=
  c * (((ρ - R0) ^ 2 + w ^ 2) / ε ^ 2 - (((ρ - R0) ^ 2 + w ^ 2) / ε ^ 2) ^ 2) / ρ

theorem torus_profile (c ε R0 : ℝ) : Profile (torusK c ε R0)
    (fun ρ w => c * (2 * (ρ - R0) / ε ^ 2 - 2 * (((ρ - R0) ^ 2 + w ^ 2) / ε ^ 2) * (2 * (ρ - R0) / ε ^ 2)) / ρ
      - c * (((ρ - R0) ^ 2 + w ^ 2) / ε ^ 2 - (((ρ - R0) ^ 2 + w ^ 2) / ε ^ 2) ^ 2) / ρ ^ 2)
    (fun ρ w => c * (2 / ε ^ 2 - 2 * (2 * (ρ - R0) / ε ^ 2) * (2 * (ρ - R0) / ε ^ 2) - 2 * (((ρ - R0) ^ 2 + w ^ 2) / ε ^ 2) * (2 / ε ^ 2)) / ρ
      - 2 * (c * (2 * (ρ - R0) / ε ^ 2 - 2 * (((ρ - R0) ^ 2 + w ^ 2) / ε ^ 2) * (2 * (ρ - R0) / ε ^ 2)) / ρ ^ 2)
      + 2 * (c * (((ρ - R0) ^ 2 + w ^ 2) / ε ^ 2 - (((ρ - R0) ^ 2 + w ^ 2) / ε ^ 2) ^ 2) / ρ ^ 3))
    (fun ρ w => c * (2 * w / ε ^ 2 - 2 * (((ρ - R0) ^ 2 + w ^ 2) / ε ^ 2) * (2 * w / ε ^ 2)) / ρ)
    (fun ρ w => c * (2 / ε ^ 2 - 2 * (2 * w / ε ^ 2) * (2 * w / ε ^ 2) - 2 * (((ρ - R0) ^ 2 + w ^ 2) / ε ^ 2) * (2 / ε ^ 2)) / ρ) := by
  have hS : ∀ ρ w : ℝ, HasDerivAt (fun s => ((s - R0) ^ 2 + w ^ 2) / ε ^ 2) (2 * (ρ - R0) / ε ^ 2) ρ := by
    intro ρ w
    have := ((((hasDerivAt_id' ρ).sub_const R0).pow 2).add_const (w ^ 2)).div_const (ε ^ 2)
    refine this.congr_deriv ?_
    norm_num
  have hW : ∀ ρ w : ℝ, HasDerivAt (fun s => ((ρ - R0) ^ 2 + s ^ 2) / ε ^ 2) (2 * w / ε ^ 2) w := by
    intro ρ w
    have := (((hasDerivAt_id' w).pow 2).const_add ((ρ - R0) ^ 2)).div_const (ε ^ 2)
    refine this.congr_deriv ?_
    norm_num
  have hS2 : ∀ ρ : ℝ, HasDerivAt (fun s => 2 * (s - R0) / ε ^ 2) (2 / ε ^ 2) ρ := by
    intro ρ
    have := (((hasDerivAt_id' ρ).sub_const R0).const_mul 2).div_const (ε ^ 2)
    refine this.congr_deriv ?_
    norm_num
  have hW2 : ∀ w : ℝ, HasDerivAt (fun s => 2 * s / ε ^ 2) (2 / ε ^ 2) w := by
    intro w
    have := ((hasDerivAt_id' w).const_mul 2).div_const (ε ^ 2)
    refine this.congr_deriv ?_
    norm_num
  refine ⟨fun ρ w hρ => ?_, fun ρ w hρ => ?_, fun ρ w hρ => ?_, fun ρ w hρ => ?_⟩
  · have h := (((hS ρ w).sub ((hS ρ w).pow 2)).const_mul c).div (hasDerivAt_id' ρ) hρ.ne'
    refine h.congr_deriv ?_
    simp only [Nat.reduceSub, Nat.cast_ofNat, pow_one, mul_one, Pi.mul_apply, Pi.pow_apply, Pi.sub_apply, Pi.add_apply]
    generalize ((ρ - R0) ^ 2 + w ^ 2) / ε ^ 2 = S
    generalize 2 * (ρ - R0) / ε ^ 2 = T
    have := hρ.ne'
    field_simp
  · have a := (((hS2 ρ).sub (((hS ρ w).const_mul 2).mul (hS2 ρ))).const_mul c).div (hasDerivAt_id' ρ) hρ.ne'
    have b := (((hS ρ w).sub ((hS ρ w).pow 2)).const_mul c).div ((hasDerivAt_id' ρ).pow 2) (pow_ne_zero 2 hρ.ne')
    have h := a.sub b
    refine h.congr_deriv ?_
    simp only [Nat.reduceSub, Nat.cast_ofNat, pow_one, mul_one, Pi.mul_apply, Pi.pow_apply, Pi.sub_apply, Pi.add_apply]
    generalize ((ρ - R0) ^ 2 + w ^ 2) / ε ^ 2 = S
    generalize 2 * (ρ - R0) / ε ^ 2 = T
    generalize 2 / ε ^ 2 = V
    have := hρ.ne'
    field_simp
    ring
  · have h := (((hW ρ w).sub ((hW ρ w).pow 2)).const_mul c).div_const ρ
    refine h.congr_deriv ?_
    norm_num
  · have h := (((hW2 w).sub (((hW ρ w).const_mul 2).mul (hW2 w))).const_mul c).div_const ρ
    refine h.congr_deriv ?_
    generalize ((ρ - R0) ^ 2 + w ^ 2) / ε ^ 2 = S
    generalize 2 * w / ε ^ 2 = T
    generalize 2 / ε ^ 2 = V
    ring

theorem torus_rho {ε R0 : ℝ} {x : V3} (h : 0 < R0 + ε * x 0 * cos (2 * π * x 1)) :
    rho 0 1 (toroidMap ε 1 R0 x) = R0 + ε * x 0 * cos (2 * π * x 1) := by
  have e : (toroidMap ε 1 R0 x) 0 ^ 2 + (toroidMap ε 1 R0 x) 1 ^ 2 = (R0 + ε * x 0 * cos (2 * π * x 1)) ^ 2 := by
    simp only [toroidMap, Matrix.cons_val_zero, Matrix.cons_val_one]
    linear_combination (R0 + ε * x 0 * cos (2 * π * x 1)) ^ 2 * cos_sq_add_sin_sq (2 * π * x 2)
  unfold rho
  rw [e, sqrt_sq h.le]

theorem torus_S {ε R0 : ℝ} {x : V3} (hε : ε ≠ 0) :
    ((R0 + ε * x 0 * cos (2 * π * x 1) - R0) ^ 2 + (toroidMap ε 1 R0 x) 2 ^ 2) / ε ^ 2 = x 0 ^ 2 := by
  have : (toroidMap ε 1 R0 x) 2 = ε * x 0 * sin (2 * π * x 1) := by simp [toroidMap]
  rw [this]
  field_simp
  linear_combination ε ^ 2 * x 0 ^ 2 * cos_sq_add_sin_sq (2 * π * x 1)

/-- The general torus problem: `u = c (r² - r⁴) cos 2πζ`. -/
theorem torus_solution {c ε R0 : ℝ} (hε : 0 < ε) : ∃ U : V3 → ℝ,
    (∀ x, 0 < x 0 → ε * x 0 < R0 → U (toroidMap ε 1 R0 x) = c * (x 0 ^ 2 - x 0 ^ 4) * cos (2 * π * x 2)) ∧
    ∀ x, 0 < x 0 → ε * x 0 < R0 → HasLaplacian U
      (-(cos (2 * π * x 2) * (c * (-4 / ε ^ 2 * (1 - 4 * x 0 ^ 2) - 4 / (ε * (R0 + ε * x 0 * cos (2 * π * x 1))) * (x 0 / 2 - x 0 ^ 3) *
        cos (2 * π * x 1) + (x 0 ^ 2 - x 0 ^ 4) / (R0 + ε * x 0 * cos (2 * π * x 1)) ^ 2)))) (toroidMap ε 1 R0 x) := by
  refine ⟨fun y => y 0 * torusK c ε R0 (rho 0 1 y) (y 2), fun x hx hR => ?_, fun x hx hR => ?_⟩
  · have hp := radius_pos (t := 2 * π * x 1) hx.le (by rwa [abs_of_pos hε])
    beta_reduce
    rw [torus_rho hp, torusK, torus_S hε.ne']
    have : (toroidMap ε 1 R0 x) 0 = (R0 + ε * x 0 * cos (2 * π * x 1)) * cos (2 * π * x 2) := by simp [toroidMap]
    rw [this]
    field_simp
  · have hp := radius_pos (t := 2 * π * x 1) hx.le (by rwa [abs_of_pos hε])
    have h := (torus_profile c ε R0).laplacian_mul (i := 0) (j := 1) (k := 2) (y := toroidMap ε 1 R0 x) (by decide) (by decide) (by decide)
      (by rw [torus_rho hp]; exact hp)
    rw [torus_rho hp] at h
    convert h using 1
    beta_reduce
    rw [torus_S hε.ne']
    have e0 : (toroidMap ε 1 R0 x) 0 = (R0 + ε * x 0 * cos (2 * π * x 1)) * cos (2 * π * x 2) := by simp [toroidMap]
    have e2 : (toroidMap ε 1 R0 x) 2 = ε * x 0 * sin (2 * π * x 1) := by simp [toroidMap]
    have es : sin (2 * π * x 1) ^ 2 = 1 - cos (2 * π * x 1) ^ 2 := by
      linear_combination cos_sq_add_sin_sq (2 * π * x 1)
    rw [e0, e2]
    obtain ⟨R, hRd⟩ : ∃ R, R = R0 + ε * x 0 * cos (2 * π * x 1) := ⟨_, rfl⟩
    have hR0 : R0 = R - ε * x 0 * cos (2 * π * x 1) := by rw [hRd]; ring
    rw [← hRd] at hp ⊢
    rw [hR0]
    have hRne := hp.ne'
    have hene := hε.ne'
    generalize cos (2 * π * x 2) = C at *
    generalize cos (2 * π * x 1) = K at *
    generalize sin (2 * π * x 1) = S at *
    field_simp
    ring_nf
    rw [es]
    ring

/-- **C84** `scripts/tutorials/toroid_poisson.py` (`ɛ = 1/3`; here for every `0 < ɛ < 1`): `u` is a solution of `-ΔU = f` on the torus with
`u = 0` on its boundary. -/
theorem C84_toroid {ε : ℝ} (hε : 0 < ε) (hε1 : ε < 1) :
    (∃ U : V3 → ℝ, (∀ x, 0 < x 0 → x 0 ≤ 1 → U (toroidMap ε 1 1 x) = toroidU x) ∧
      ∀ x, 0 < x 0 → x 0 ≤ 1 → HasLaplacian U (-toroidF ε x) (toroidMap ε 1 1 x)) ∧ ∀ x, x 0 = 1 → toroidU x = 0 := by
  obtain ⟨U, h1, h2⟩ := torus_solution (c := 1) (R0 := 1) hε
  refine ⟨⟨U, fun x h0 hx => ?_, fun x h0 hx => ?_⟩, fun x hx => by unfold toroidU; rw [hx]; norm_num⟩
  · rw [h1 x h0 (by nlinarith)]; unfold toroidU; ring
  · convert h2 x h0 (by nlinarith) using 1
    unfold toroidF
    ring

example := C84_toroid (ε := 1 / 3) (by norm_num) (by norm_num)

/-- **C84** `scripts/interactive/toroid_poisson.py` (`a = 1/3`, `R0 = 1`; here for every `0 < a < R0`): `u` is a solution of `-ΔU = f` on
the torus with `u = 0` on its boundary. -/
theorem C84_toroid_interactive {a R0 : ℝ} (ha : 0 < a) (haR : a < R0) :
    (∃ U : V3 → ℝ, (∀ x, 0 < x 0 → x 0 ≤ 1 → U (toroidMap a 1 R0 x) = toroidU2 x) ∧
      ∀ x, 0 < x 0 → x 0 ≤ 1 → HasLaplacian U (-toroidF2 a R0 x) (toroidMap a 1 R0 x)) ∧ ∀ x, x 0 = 1 → toroidU2 x = 0 := by
  obtain ⟨U, h1, h2⟩ := torus_solution (c := 1 / 4) (R0 := R0) ha
  refine ⟨⟨U, fun x h0 hx => ?_, fun x h0 hx => ?_⟩, fun x hx => by unfold toroidU2; rw [hx]; norm_num⟩
  · rw [h1 x h0 (by nlinarith)]; unfold toroidU2; ring
  · convert h2 x h0 (by nlinarith) using 1
    simp only [toroidF2]
    have hp := radius_pos (t := 2 * π * x 1) h0.le (show |a| * x 0 < R0 by rw [abs_of_pos ha]; nlinarith)
    generalize R0 + a * x 0 * cos (2 * π * x 1) = R at *
    field_simp

example := C84_toroid_interactive (a := 1 / 2) (R0 := 2) (by norm_num) (by norm_num)

/-! ## The vector problem on the cylinder -/

theorem cylinder_rho {x : V3} (h : 0 < x 0) : rho 0 1 (cylinderMap 1 1 x) = x 0 := by
  have e : (cylinderMap 1 1 x) 0 ^ 2 + (cylinderMap 1 1 x) 1 ^ 2 = x 0 ^ 2 := by
    simp only [cylinderMap, Matrix.cons_val_zero, Matrix.cons_val_one]
    linear_combination x 0 ^ 2 * cos_sq_add_sin_sq (2 * π * x 1)
  unfold rho
  rw [e, sqrt_sq h.le]

theorem cylinder_z (x : V3) : (cylinderMap 1 1 x) 2 = x 2 := by simp [cylinderMap]

theorem cos_line (w : ℝ) : HasDerivAt (fun s => cos (2 * π * s)) (-sin (2 * π * w) * (2 * π)) w := by
  have := (hasDerivAt_cos (2 * π * w)).comp w ((hasDerivAt_id' w).const_mul (2 * π))
  rw [mul_one] at this
  exact this

theorem sin_line (w : ℝ) : HasDerivAt (fun s => sin (2 * π * s)) (cos (2 * π * w) * (2 * π)) w := by
  have := (hasDerivAt_sin (2 * π * w)).comp w ((hasDerivAt_id' w).const_mul (2 * π))
  rw [mul_one] at this
  exact this

theorem cylinder_axial (g : ℝ → ℝ) (ρ w : ℝ) : HasDerivAt (fun s => g ρ * cos (2 * π * s)) (g ρ * (-sin (2 * π * w) * (2 * π))) w ∧
    HasDerivAt (fun s => g ρ * (-sin (2 * π * s) * (2 * π))) (g ρ * (-(cos (2 * π * w) * (2 * π)) * (2 * π))) w :=
  ⟨(cos_line w).const_mul _, (((sin_line w).neg).mul_const (2 * π)).const_mul _⟩

/-- **C84** the problem of `test_cylinder_vector_poisson.py` and `cylinder_vector_poisson.py`, read as intended by the names `u_theta`,
`f_theta`: the field `U = u_θ e_θ` satisfies `-ΔU = f_θ e_θ` (componentwise Laplacian), and `u_θ = 0` on the boundary. -/
theorem C84_vector_azimuthal : (∃ U : V3 → V3,
    (∀ x, 0 < x 0 → U (cylinderMap 1 1 x) = cylinderU x 1 • ![-sin (2 * π * x 1), cos (2 * π * x 1), 0]) ∧
    ∀ x, 0 < x 0 → ∀ c : Fin 3, HasLaplacian (fun y => U y c) (-(cylinderF x 1 • ![-sin (2 * π * x 1), cos (2 * π * x 1), 0]) c)
      (cylinderMap 1 1 x)) ∧ ∀ x, x 0 = 1 → cylinderU x 1 = 0 := by
  have hP : Profile (fun r w => (r * (1 - r) ^ 2) * cos (2 * π * w)) (fun r w => (1 - 4 * r + 3 * r ^ 2) * cos (2 * π * w))
      (fun r w => (-4 + 6 * r) * cos (2 * π * w)) (fun r w => (r * (1 - r) ^ 2) * (-sin (2 * π * w) * (2 * π)))
      (fun r w => (r * (1 - r) ^ 2) * (-(cos (2 * π * w) * (2 * π)) * (2 * π))) := by
    refine ⟨fun r w hr => ?_, fun r w hr => ?_, fun r w hr => (cylinder_axial (fun r => r * (1 - r) ^ 2) r w).1,
      fun r w hr => (cylinder_axial (fun r => r * (1 - r) ^ 2) r w).2⟩
    · have h := ((hasDerivAt_id' r).mul (((hasDerivAt_id' r).const_sub 1).pow 2)).mul_const (cos (2 * π * w))
      refine h.congr_deriv ?_
      simp only [Nat.reduceSub, Nat.cast_ofNat, pow_one, mul_one, Pi.mul_apply, Pi.pow_apply, Pi.sub_apply, Pi.add_apply]
      ring
    · have h := (((hasDerivAt_const r (1:ℝ)).sub ((hasDerivAt_id' r).const_mul 4)).add (((hasDerivAt_pow 2 r)).const_mul 3)).mul_const
        (cos (2 * π * w))
      refine h.congr_deriv ?_
      simp only [Nat.reduceSub, Nat.cast_ofNat, pow_one, mul_one, Pi.mul_apply, Pi.pow_apply, Pi.sub_apply, Pi.add_apply]
      ring
  have hN : Profile (fun r w => -((r * (1 - r) ^ 2) * cos (2 * π * w))) (fun r w => -((1 - 4 * r + 3 * r ^ 2) * cos (2 * π * w)))
      (fun r w => -((-4 + 6 * r) * cos (2 * π * w))) (fun r w => -((r * (1 - r) ^ 2) * (-sin (2 * π * w) * (2 * π))))
      (fun r w => -((r * (1 - r) ^ 2) * (-(cos (2 * π * w) * (2 * π)) * (2 * π)))) :=
    ⟨fun r w hr => (hP.r r w hr).neg, fun r w hr => (hP.rr r w hr).neg, fun r w hr => (hP.w r w hr).neg, fun r w hr => (hP.ww r w hr).neg⟩
  have c0 : ∀ x, (cylinderMap 1 1 x) 0 = x 0 * cos (2 * π * x 1) := fun x => by simp [cylinderMap]
  have c1 : ∀ x, (cylinderMap 1 1 x) 1 = x 0 * sin (2 * π * x 1) := fun x => by simp [cylinderMap]
  have er : rho 1 0 = rho 0 1 := by funext z; exact rho_comm _ _ _
  refine ⟨⟨fun y => ![y 1 * (-((rho 0 1 y * (1 - rho 0 1 y) ^ 2) * cos (2 * π * y 2))),
    y 0 * ((rho 0 1 y * (1 - rho 0 1 y) ^ 2) * cos (2 * π * y 2)), 0], fun x hx => ?_, fun x hx c => ?_⟩, fun x hx => ?_⟩
  · beta_reduce
    rw [cylinder_rho hx, cylinder_z, c0, c1]
    funext c
    fin_cases c <;> simp [cylinderU] <;> ring
  · fin_cases c
    · have h := hN.laplacian_mul (i := 1) (j := 0) (k := 2) (y := cylinderMap 1 1 x) (by decide) (by decide) (by decide)
        (by rw [er, cylinder_rho hx]; exact hx)
      rw [er, cylinder_rho hx, cylinder_z, c1] at h
      refine Eq.subst (motive := fun v => HasLaplacian _ v _) ?_ h
      change _ = -(cylinderF x 1 * -sin (2 * π * x 1))
      simp only [cylinderF, Matrix.cons_val_one, Matrix.cons_val_zero]
      field_simp
      ring
    · have h := hP.laplacian_mul (i := 0) (j := 1) (k := 2) (y := cylinderMap 1 1 x) (by decide) (by decide) (by decide)
        (by rw [cylinder_rho hx]; exact hx)
      rw [cylinder_rho hx, cylinder_z, c0] at h
      refine Eq.subst (motive := fun v => HasLaplacian _ v _) ?_ h
      change _ = -(cylinderF x 1 * cos (2 * π * x 1))
      simp only [cylinderF, Matrix.cons_val_one, Matrix.cons_val_zero]
      field_simp
      ring
    · refine ⟨fun _ _ => 0, fun _ => 0, ?_, fun i => HasPD.const 0 i _, ?_⟩
      · filter_upwards with z i
        exact HasPD.const 0 i z
      · simp
  · unfold cylinderU; simp [hx]

/-- **C84** negation: the arrays `[0, u_theta, 0]`, `[0, f_theta, 0]` that the scripts pass to `P2` are Cartesian components (see
`C36`), and as such they are no solution: every field `U` with `U(F(x)) = [0, u_theta, 0]` that has a Laplacian has
`-ΔU_y = f_theta - (1 - r)² cos 2πz`, which differs from `f_theta` at every point with `0 < r < 1` and `cos 2πz ≠ 0`. -/
theorem C84_vector_cartesian_wrong (U : V3 → V3) (hU : ∀ x, 0 < x 0 → U (cylinderMap 1 1 x) = cylinderU x) (x : V3) (hx : 0 < x 0) :
    (∃ v, HasLaplacian (fun y => U y 1) v (cylinderMap 1 1 x)) ∧
    ∀ v, HasLaplacian (fun y => U y 1) v (cylinderMap 1 1 x) → -v = cylinderF x 1 - (1 - x 0) ^ 2 * cos (2 * π * x 2) ∧
      (x 0 < 1 → cos (2 * π * x 2) ≠ 0 → -v ≠ cylinderF x 1) := by
  have hP : Profile (fun r w => (r ^ 2 * (1 - r) ^ 2) * cos (2 * π * w)) (fun r w => (2 * r - 6 * r ^ 2 + 4 * r ^ 3) * cos (2 * π * w))
      (fun r w => (2 - 12 * r + 12 * r ^ 2) * cos (2 * π * w)) (fun r w => (r ^ 2 * (1 - r) ^ 2) * (-sin (2 * π * w) * (2 * π)))
      (fun r w => (r ^ 2 * (1 - r) ^ 2) * (-(cos (2 * π * w) * (2 * π)) * (2 * π))) := by
    refine ⟨fun r w hr => ?_, fun r w hr => ?_, fun r w hr => (cylinder_axial (fun r => r ^ 2 * (1 - r) ^ 2) r w).1,
      fun r w hr => (cylinder_axial (fun r => r ^ 2 * (1 - r) ^ 2) r w).2⟩
    · have h := ((hasDerivAt_pow 2 r).mul (((hasDerivAt_id' r).const_sub 1).pow 2)).mul_const (cos (2 * π * w))
      refine h.congr_deriv ?_
      simp only [Nat.reduceSub, Nat.cast_ofNat, pow_one, mul_one, Pi.mul_apply, Pi.pow_apply, Pi.sub_apply, Pi.add_apply]
      ring
    · have h := ((((hasDerivAt_id' r).const_mul 2).sub ((hasDerivAt_pow 2 r).const_mul 6)).add (((hasDerivAt_pow 3 r)).const_mul 4)).mul_const
        (cos (2 * π * w))
      refine h.congr_deriv ?_
      simp only [Nat.reduceSub, Nat.cast_ofNat, pow_one, mul_one, Pi.mul_apply, Pi.pow_apply, Pi.sub_apply, Pi.add_apply]
      ring
  have hlap := hP.laplacian (i := 0) (j := 1) (k := 2) (y := cylinderMap 1 1 x) (by decide) (by decide) (by decide)
    (by rw [cylinder_rho hx]; exact hx)
  rw [cylinder_rho hx, cylinder_z] at hlap
  have hpos : 0 < rho 0 1 (cylinderMap 1 1 x) := by rw [cylinder_rho hx]; exact hx
  have hnear : ∀ᶠ z in 𝓝 (cylinderMap 1 1 x), (rho 0 1 z ^ 2 * (1 - rho 0 1 z) ^ 2) * cos (2 * π * z 2) = U z 1 := by
    filter_upwards [rho_pos_near hpos] with z hz
    have h2 : cylinderMap 1 1 ![rho 0 1 z, arctan2 (z 1) (z 0) / (2 * π), z 2] = z := by
      obtain ⟨a1, a2⟩ := arctan2_polar (z 1) (z 0)
      have e : 2 * π * (arctan2 (z 1) (z 0) / (2 * π)) = arctan2 (z 1) (z 0) := by field_simp
      funext c
      fin_cases c <;> simp [cylinderMap, rho, e, a1, a2]
    have h3 := hU ![rho 0 1 z, arctan2 (z 1) (z 0) / (2 * π), z 2] hz
    rw [h2] at h3
    rw [h3]
    simp [cylinderU]
  constructor
  · refine ⟨(2 - 12 * x 0 + 12 * x 0 ^ 2) * cos (2 * π * x 2) + (2 * x 0 - 6 * x 0 ^ 2 + 4 * x 0 ^ 3) * cos (2 * π * x 2) / x 0 +
        (x 0 ^ 2 * (1 - x 0) ^ 2) * (-(cos (2 * π * x 2) * (2 * π)) * (2 * π)), ?_⟩
    · obtain ⟨g, s, h1, h2, h3⟩ := hlap
      refine ⟨g, s, ?_, h2, h3⟩
      filter_upwards [h1, hnear.eventually_nhds] with z a b i
      exact (HasPD.congr_near b).mp (a i)
  · intro v hv
    have e := HasLaplacian.unique hnear hlap hv
    have e1 : -v = cylinderF x 1 - (1 - x 0) ^ 2 * cos (2 * π * x 2) := by
      rw [← e]
      simp only [cylinderF, Matrix.cons_val_one, Matrix.cons_val_zero]
      field_simp
      ring
    refine ⟨e1, fun h1 hc h => ?_⟩
    rw [e1] at h
    have : (1 - x 0) ^ 2 * cos (2 * π * x 2) = 0 := by linarith
    rcases mul_eq_zero.mp this with h | h
    · have := pow_eq_zero_iff (two_ne_zero) |>.mp h
      linarith
    · exact hc h

/-- A point that meets the hypotheses. -/
example : (0 : ℝ) < (![1 / 2, 0, 0] : V3) 0 ∧ (![1 / 2, 0, 0] : V3) 0 < 1 ∧ cos (2 * π * (![1 / 2, 0, 0] : V3) 2) ≠ 0 := by
  simp; norm_num

end Mrx.Props
