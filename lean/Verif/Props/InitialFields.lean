import Verif.Model.Manufactured
import Verif.Proofs.Laplacian
import Verif.Proofs.Maps

/-!
# C85: the analytic initial fields of the scripts

`B_0` of `iter_islands.py` (and, with `kappa = 1`, `B_xyz` of `stell.py`) is an exact equilibrium off the axis `R = 0`; the Hopf field of `hopf.py` is
divergence-free everywhere and tangent to the nested tori `(x² + y²) / (1 + r²)² = const`.
-/

set_option linter.unusedVariables false

namespace Mrx.Props
open Mrx Spec Manufactured Real Topology

/-- Partial derivatives of the coordinates. -/
theorem pd_coord (k i : Fin 3) (y : V3) : HasPD (fun z => z k) i (if k = i then 1 else 0) y := by
  by_cases h : k = i
  · subst h; rw [if_pos rfl]; exact HasPD.coord _ _
  · rw [if_neg h]; exact HasPD.coord_ne h _

theorem pd_eq {U V : V3 → ℝ} {i : Fin 3} {u v : ℝ} {y : V3} (h : HasPD U i u y) (hUV : ∀ z, U z = V z) (huv : u = v) : HasPD V i v y := by
  have : U = V := funext hUV
  subst this; subst huv; exact h

/-- The field in Cartesian components. -/
noncomputable def solovevCart (kappa tau : ℝ) (y : V3) : V3 :=
  ![y 2 * y 0 - tau * (y 1 / (y 0 * y 0 + y 1 * y 1)), y 2 * y 1 + tau * (y 0 / (y 0 * y 0 + y 1 * y 1)),
    -(kappa ^ 2 / 2 * (y 0 * y 0 + y 1 * y 1 - 1) + y 2 * y 2)]

theorem solovev_cart (kappa tau : ℝ) {y : V3} (h : 0 < y 0 ^ 2 + y 1 ^ 2) : solovevB kappa tau y = solovevCart kappa tau y := by
  obtain ⟨a, b⟩ := arctan2_polar (y 1) (y 0)
  have hs : √ (y 0 ^ 2 + y 1 ^ 2) ^ 2 = y 0 ^ 2 + y 1 ^ 2 := sq_sqrt h.le
  have hp : 0 < √ (y 0 ^ 2 + y 1 ^ 2) := sqrt_pos.mpr h
  simp only [solovevB, solovevCart]
  generalize √ (y 0 ^ 2 + y 1 ^ 2) = R at *
  generalize arctan2 (y 1) (y 0) = φ at *
  have e : y 0 * y 0 + y 1 * y 1 = R ^ 2 := by rw [hs]; ring
  have hne := hp.ne'
  rw [e, ← a, ← b]
  funext c
  fin_cases c
  · change _ * cos φ - _ * sin φ = _ - _
    field_simp
  · change _ * sin φ + _ * cos φ = _ + _
    field_simp
  · change -_ = -_
    ring

theorem solovev_near (kappa tau : ℝ) {y : V3} (h : 0 < y 0 ^ 2 + y 1 ^ 2) (c : Fin 3) :
    ∀ᶠ z in 𝓝 y, solovevCart kappa tau z c = solovevB kappa tau z c := by
  have hc : Continuous fun z : V3 => z 0 ^ 2 + z 1 ^ 2 := by fun_prop
  filter_upwards [hc.continuousAt.eventually (lt_mem_nhds h)] with z hz
  rw [solovev_cart kappa tau hz]

/-- All nine partial derivatives. -/
noncomputable def solovevGrad (kappa tau : ℝ) (y : V3) (c i : Fin 3) : ℝ :=
  let Q := y 0 * y 0 + y 1 * y 1
  (![![y 2 - tau * (-(y 1 * (2 * y 0)) / Q ^ 2), -(tau * ((Q - y 1 * (2 * y 1)) / Q ^ 2)), y 0],
    ![tau * ((Q - y 0 * (2 * y 0)) / Q ^ 2), y 2 + tau * (-(y 0 * (2 * y 1)) / Q ^ 2), y 1],
    ![-(kappa ^ 2 * y 0), -(kappa ^ 2 * y 1), -(2 * y 2)]] : Fin 3 → Fin 3 → ℝ) c i

theorem solovev_pd (kappa tau : ℝ) {y : V3} (h : 0 < y 0 ^ 2 + y 1 ^ 2) (c i : Fin 3) :
    HasPD (fun z => solovevB kappa tau z c) i (solovevGrad kappa tau y c i) y := by
  refine (HasPD.congr_near (solovev_near kappa tau h c)).mp ?_
  have hQ : y 0 * y 0 + y 1 * y 1 ≠ 0 := by nlinarith
  have q := ((pd_coord 0 i y).mul' (pd_coord 0 i y)).add' ((pd_coord 1 i y).mul' (pd_coord 1 i y))
  have p0 := ((pd_coord 2 i y).mul' (pd_coord 0 i y)).add' (((HasPD.const tau i y).mul' ((pd_coord 1 i y).div' q hQ)).neg')
  have p1 := ((pd_coord 2 i y).mul' (pd_coord 1 i y)).add' ((HasPD.const tau i y).mul' ((pd_coord 0 i y).div' q hQ))
  have p2 := (((HasPD.const (kappa ^ 2 / 2) i y).mul' (q.add' (HasPD.const (-1) i y))).add' ((pd_coord 2 i y).mul' (pd_coord 2 i y))).neg'
  fin_cases c
  · refine pd_eq p0 (fun z => ?_) ?_
    · change _ = _ - _; ring
    · fin_cases i <;> simp [solovevGrad, -mul_eq_mul_left_iff] <;> ring
  · refine pd_eq p1 (fun z => ?_) ?_
    · change _ = _ + _; ring
    · fin_cases i <;> simp [solovevGrad, -mul_eq_mul_left_iff] <;> ring
  · refine pd_eq p2 (fun z => ?_) ?_
    · change _ = -(_); ring
    · fin_cases i <;> simp [solovevGrad, -mul_eq_mul_left_iff] <;> ring

/-- The flux function `ψ = z² R² / 2 + κ² (R² - 1)² / 8` with `R² = x² + y²`. -/
noncomputable def fluxPsi (kappa : ℝ) (y : V3) : ℝ :=
  y 2 ^ 2 * (y 0 ^ 2 + y 1 ^ 2) / 2 + kappa ^ 2 / 8 * (y 0 ^ 2 + y 1 ^ 2 - 1) ^ 2

theorem fluxPsi_grad (kappa c : ℝ) (y : V3) : HasGradientAt3 (fun z => c * fluxPsi kappa z)
    (c • ![y 0 * (y 2 ^ 2 + kappa ^ 2 / 2 * (y 0 ^ 2 + y 1 ^ 2 - 1)), y 1 * (y 2 ^ 2 + kappa ^ 2 / 2 * (y 0 ^ 2 + y 1 ^ 2 - 1)),
      y 2 * (y 0 ^ 2 + y 1 ^ 2)]) y := by
  intro i
  have q := ((pd_coord 0 i y).mul' (pd_coord 0 i y)).add' ((pd_coord 1 i y).mul' (pd_coord 1 i y))
  have q1 := q.add' (HasPD.const (-1) i y)
  have z2 := (pd_coord 2 i y).mul' (pd_coord 2 i y)
  have p := (HasPD.const c i y).mul' (((HasPD.const (1 / 2) i y).mul' (z2.mul' q)).add' ((HasPD.const (kappa ^ 2 / 8) i y).mul' (q1.mul' q1)))
  refine pd_eq p (fun z => ?_) ?_
  · unfold fluxPsi; ring
  · fin_cases i <;> simp [-mul_eq_mul_left_iff] <;> ring

/-- **C85** the field of `iter_islands.py` / `stell.py` off the axis: it is divergence-free, its current is `J = (1 + κ²) R e_φ`, the force
balance `J × B = ∇p` holds with `p = -(1 + κ²) ψ`, and `B` is tangent to the surfaces `ψ = const`. For every `κ` and `τ`. -/
theorem C85_solovev_equilibrium (kappa tau : ℝ) {y : V3} (h : 0 < y 0 ^ 2 + y 1 ^ 2) :
    HasDivergence (solovevB kappa tau) 0 y ∧
    ∃ J : V3, HasCurl (solovevB kappa tau) J y ∧ J = (1 + kappa ^ 2) • ![-y 1, y 0, 0] ∧
      HasGradientAt3 (fun z => -(1 + kappa ^ 2) * fluxPsi kappa z)
        ![J 1 * solovevB kappa tau y 2 - J 2 * solovevB kappa tau y 1, J 2 * solovevB kappa tau y 0 - J 0 * solovevB kappa tau y 2,
          J 0 * solovevB kappa tau y 1 - J 1 * solovevB kappa tau y 0] y ∧
      ∀ g, HasGradientAt3 (fluxPsi kappa) g y → g 0 * solovevB kappa tau y 0 + g 1 * solovevB kappa tau y 1 + g 2 * solovevB kappa tau y 2 = 0 := by
  have hQ : y 0 * y 0 + y 1 * y 1 ≠ 0 := by nlinarith
  refine ⟨⟨fun i => solovevGrad kappa tau y i i, fun i => solovev_pd kappa tau h i i, ?_⟩, (1 + kappa ^ 2) • ![-y 1, y 0, 0],
    ⟨solovevGrad kappa tau y, solovev_pd kappa tau h, ?_⟩, rfl, ?_, fun g hg => ?_⟩
  · simp [solovevGrad]; ring
  · funext c
    fin_cases c
    · simp [solovevGrad]; ring
    · simp [solovevGrad]; ring
    · simp [solovevGrad]; field_simp; ring
  · intro i
    have e := fluxPsi_grad kappa (-(1 + kappa ^ 2)) y i
    rw [solovev_cart kappa tau h]
    refine pd_eq e (fun _ => rfl) ?_
    fin_cases i <;> simp [solovevCart, -neg_add_rev] <;> field_simp <;> ring
  · have e : ∀ i, g i = _ := fun i => (hg i).unique (pd_eq (fluxPsi_grad kappa 1 y i) (fun z => one_mul _) rfl)
    rw [e 0, e 1, e 2, solovev_cart kappa tau h]
    simp [solovevCart]
    field_simp
    ring

example := C85_solovev_equilibrium 1.7 0.4 (y := ![1, 2, 3]) (by norm_num)

/-- `dR/dφ` along a field line of `B`, in the half plane `φ = 0`. -/
noncomputable def slopeR (B : V3 → V3) (R z : ℝ) : ℝ := R * B ![R, 0, z] 0 / B ![R, 0, z] 1
/-- `dz/dφ` along a field line of `B`, in the half plane `φ = 0`. -/
noncomputable def slopeZ (B : V3 → V3) (R z : ℝ) : ℝ := R * B ![R, 0, z] 2 / B ![R, 0, z] 1

theorem solovev_slopes (kappa tau : ℝ) {R z : ℝ} (hR : 0 < R) (ht : tau ≠ 0) :
    slopeR (solovevB kappa tau) R z = z * R ^ 3 / tau ∧ slopeZ (solovevB kappa tau) R z = -(kappa ^ 2 / 2 * (R ^ 2 - 1) + z ^ 2) * R ^ 2 / tau := by
  have h : 0 < (![R, 0, z] : V3) 0 ^ 2 + (![R, 0, z] : V3) 1 ^ 2 := by simp; positivity
  unfold slopeR slopeZ
  rw [solovev_cart kappa tau h]
  have hR' := hR.ne'
  constructor
  · simp [solovevCart]; field_simp
  · simp [solovevCart]; field_simp

/-- **C85** the safety factor on the magnetic axis of the field of `iter_islands.py`: the circle `R = 1`, `z = 0` is a field line; the linearised
field line equations about it have the coefficients `0, 1/τ, -κ²/τ, 0`, and their solutions `(a cos ωφ, -κ a sin ωφ)` turn once about the axis while
`φ` grows by `2π q`, `q = 1/ω`. With the script's `τ` this is `q = q_star (1 + κ²)/(1 + κ)`, which is `q_star` for `κ = 1`. -/
theorem C85_axis_safety_factor {qStar kappa : ℝ} (hq : 0 < qStar) (hk : 0 < kappa) :
    let B := solovevB kappa (iterTau qStar kappa)
    let q := qStar * (1 + kappa ^ 2) / (1 + kappa)
    slopeR B 1 0 = 0 ∧ slopeZ B 1 0 = 0 ∧
    ∃ a b c d : ℝ, HasDerivAt (fun R => slopeR B R 0) a 1 ∧ HasDerivAt (fun z => slopeR B 1 z) b 0 ∧
      HasDerivAt (fun R => slopeZ B R 0) c 1 ∧ HasDerivAt (fun z => slopeZ B 1 z) d 0 ∧
      (∀ A φ : ℝ, HasDerivAt (fun t => A * cos (t / q)) (a * (A * cos (φ / q)) + b * (-(kappa * A * sin (φ / q)))) φ ∧
        HasDerivAt (fun t => -(kappa * A * sin (t / q))) (c * (A * cos (φ / q)) + d * (-(kappa * A * sin (φ / q)))) φ) ∧
      (kappa = 1 → q = qStar) := by
  intro B q
  have ht : 0 < iterTau qStar kappa := by unfold iterTau; positivity
  have hqt : q = iterTau qStar kappa / kappa := by
    show _ / _ = _
    unfold iterTau
    field_simp
    ring
  have hB : B = solovevB kappa (iterTau qStar kappa) := rfl
  clear_value B q
  have hq1 : kappa = 1 → q = qStar := by
    intro h
    rw [hqt, h]
    unfold iterTau
    norm_num
  generalize iterTau qStar kappa = τ at ht hqt hB
  have hτ := ht.ne'
  have hS : ∀ {R z : ℝ}, 0 < R → slopeR B R z = z * R ^ 3 / τ ∧ slopeZ B R z = -(kappa ^ 2 / 2 * (R ^ 2 - 1) + z ^ 2) * R ^ 2 / τ :=
    fun h => by rw [hB]; exact solovev_slopes kappa τ h hτ
  have hn : ∀ᶠ R in 𝓝 (1 : ℝ), 0 < R := lt_mem_nhds one_pos
  refine ⟨by rw [(hS one_pos).1]; simp, by rw [(hS one_pos).2]; simp, 0, 1 / τ, -kappa ^ 2 / τ, 0, ?_, ?_, ?_, ?_, ?_, hq1⟩
  · refine (hasDerivAt_const (1 : ℝ) (0 : ℝ)).congr_of_eventuallyEq ?_
    filter_upwards [hn] with R hR
    rw [(hS hR).1]; simp
  · have e : (fun z => slopeR B 1 z) = fun z => z / τ := funext fun z => by rw [(hS one_pos).1]; simp
    rw [e]
    exact (hasDerivAt_id (0 : ℝ)).div_const τ
  · have hd : HasDerivAt (fun R : ℝ => -(kappa ^ 2 / 2 * (R ^ 2 - 1)) * R ^ 2 / τ) (-kappa ^ 2 / τ) 1 := by
      have h2 := hasDerivAt_pow 2 (1 : ℝ)
      have := (((h2.sub_const 1).const_mul (kappa ^ 2 / 2)).neg.mul h2).div_const τ
      refine this.congr_deriv ?_
      simp
    refine hd.congr_of_eventuallyEq ?_
    filter_upwards [hn] with R hR
    rw [(hS hR).2]; simp
  · have e : (fun z => slopeZ B 1 z) = fun z => -(z ^ 2) / τ := funext fun z => by rw [(hS one_pos).2]; simp
    rw [e]
    refine ((hasDerivAt_pow 2 (0 : ℝ)).neg.div_const τ).congr_deriv ?_
    simp
  · intro A φ
    have hq0 : q ≠ 0 := by rw [hqt]; positivity
    have hl : HasDerivAt (fun t : ℝ => t / q) (1 / q) φ := (hasDerivAt_id φ).div_const q
    constructor
    · refine (((hasDerivAt_cos (φ / q)).comp φ hl).const_mul A).congr_deriv ?_
      rw [hqt]
      field_simp
      ring
    · refine (((hasDerivAt_sin (φ / q)).comp φ hl).const_mul (kappa * A)).neg.congr_deriv ?_
      rw [hqt]
      field_simp
      ring

example := C85_axis_safety_factor (qStar := 1.54) (kappa := 1.7) (by norm_num) (by norm_num)

/-- **C85** the domain of `iter_islands.py` is not bounded by a flux surface: on the outermost surface `r = 1` of the Cerfon map, at the two
points of the midplane, `ψ` takes different values. (So the script's field has a normal component on the boundary, which the Leray projection
removes.) -/
theorem C85_boundary_is_not_a_flux_surface {eps kappa alpha : ℝ} (he : 0 < eps) (he1 : eps < 1) (hk : kappa ≠ 0) :
    fluxPsi kappa ![1 + eps, 0, 0] ≠ fluxPsi kappa ![1 - eps, 0, 0] ∧
    cerfonMap eps kappa alpha 1 ![1, 0, 0] = ![1 + eps, 0, 0] ∧ cerfonMap eps kappa alpha 1 ![1, 1 / 2, 0] = ![1 - eps, 0, 0] := by
  refine ⟨fun e => ?_, ?_, ?_⟩
  · simp only [fluxPsi, Matrix.cons_val_zero, Matrix.cons_val_one, Matrix.cons_val] at e
    have : kappa ^ 2 * (eps ^ 3) = 0 := by linarith
    rcases mul_eq_zero.mp this with e | e
    · exact hk (pow_eq_zero_iff two_ne_zero |>.mp e)
    · exact he.ne' (pow_eq_zero_iff three_ne_zero |>.mp e)
  · have a1 : cerfonA eps kappa alpha 0 = eps := by simp [cerfonA, cerfonXt, cerfonYt, sqrt_sq he.le]
    have a2 : cerfonS kappa alpha 0 = 0 := by
      have : ¬ (0 : ℝ) > 0.5 := by norm_num
      rw [cerfonS, if_neg this]
      have h1 : arctan2 0 1 = 0 := by simp [arctan2, Complex.arg]
      simp [cerfonS0, h1]
    funext c
    fin_cases c <;> simp [cerfonMap, a1, a2]
  · have t : (2 : ℝ) * π * (1 / 2) = π := by ring
    have a1 : cerfonA eps kappa alpha (1 / 2) = eps := by
      rw [cerfonA, cerfonXt, cerfonYt, t]; simp [sqrt_sq he.le]
    have a2 : cerfonS kappa alpha (1 / 2) = π := by
      have : ¬ (1 / 2 : ℝ) > 0.5 := by norm_num
      rw [cerfonS, if_neg this, cerfonS0, t]
      simp only [sin_pi, mul_zero, add_zero, cos_pi]
      exact Complex.arg_ofReal_of_neg (x := -1) (by norm_num)
    funext c
    fin_cases c
    · change (1 + cerfonA eps kappa alpha (1 / 2) * 1 * cos (cerfonS kappa alpha (1 / 2))) * cos (2 * π * 0) = 1 - eps
      rw [a1, a2]; simp; ring
    · change -(1 + cerfonA eps kappa alpha (1 / 2) * 1 * cos (cerfonS kappa alpha (1 / 2))) * sin (2 * π * 0) = 0
      simp
    · change cerfonA eps kappa alpha (1 / 2) * 1 * sin (cerfonS kappa alpha (1 / 2)) = 0
      rw [a2]; simp

example := C85_boundary_is_not_a_flux_surface (eps := 0.33) (kappa := 1.7) (alpha := 0.3) (by norm_num) (by norm_num) (by norm_num)

/-! ## The Hopf field -/

/-- The invariant of the Hopf field: `(x² + y²) / (1 + x² + y² + z²)²`. -/
noncomputable def hopfTorus (y : V3) : ℝ := (y 0 ^ 2 + y 1 ^ 2) / (1 + (y 0 ^ 2 + y 1 ^ 2 + y 2 ^ 2)) ^ 2

/-- **C85** the field of `hopf.py` is divergence-free at every point of space and tangent to the tori `(x² + y²) / (1 + r²)² = const`, for every `s`,
`ω1`, `ω2`. -/
theorem C85_hopf (s ω1 ω2 : ℝ) (y : V3) : HasDivergence (hopfB s ω1 ω2) 0 y ∧
    ∃ g, HasGradientAt3 hopfTorus g y ∧ g 0 * hopfB s ω1 ω2 y 0 + g 1 * hopfB s ω1 ω2 y 1 + g 2 * hopfB s ω1 ω2 y 2 = 0 := by
  obtain ⟨q, hq⟩ : ∃ q : V3 → ℝ, q = fun z => 1 + (z 0 * z 0 + z 1 * z 1 + z 2 * z 2) := ⟨_, rfl⟩
  have hpos : ∀ z, 0 < q z := fun z => by
    rw [hq]; beta_reduce
    nlinarith [mul_self_nonneg (z 0), mul_self_nonneg (z 1), mul_self_nonneg (z 2)]
  have hqd : ∀ i, HasPD q i (2 * y i) y := by
    intro i
    have := (HasPD.const 1 i y).add' ((((pd_coord 0 i y).mul' (pd_coord 0 i y)).add' ((pd_coord 1 i y).mul' (pd_coord 1 i y))).add'
      ((pd_coord 2 i y).mul' (pd_coord 2 i y)))
    refine pd_eq this (fun z => by rw [hq]) ?_
    fin_cases i <;> simp <;> ring
  have hne := (hpos y).ne'
  obtain ⟨A, hA⟩ : ∃ A, A = 4 * √ s / (π * √ (ω1 ^ 2 + ω2 ^ 2)) := ⟨_, rfl⟩
  have hB : ∀ z c, hopfB s ω1 ω2 z c = A * (![2 * ω2 * z 1 - 2 * ω1 * z 0 * z 2, -2 * ω2 * z 0 - 2 * ω1 * z 1 * z 2,
      ω1 * (z 0 ^ 2 + z 1 ^ 2 - z 2 ^ 2 - 1)] : V3) c / (q z * q z * q z) := by
    intro z c
    have e : 1 + (z 0 ^ 2 + z 1 ^ 2 + z 2 ^ 2) = q z := by rw [hq]; ring
    simp only [hopfB]
    rw [e, Pi.smul_apply, smul_eq_mul, hA]
    generalize (![_, _, _] : V3) c = v
    rcases eq_or_ne (√ (ω1 ^ 2 + ω2 ^ 2)) 0 with h0 | h0
    · simp [h0]
    · have := (hpos z).ne'
      field_simp
  have quot : ∀ (N : V3 → ℝ) (i : Fin 3) (n : ℝ), HasPD N i n y →
      HasPD (fun z => A * N z / (q z * q z * q z)) i (A * (n * q y - 6 * y i * N y) / q y ^ 4) y := by
    intro N i n hN
    refine pd_eq (((HasPD.const A i y).mul' hN).div' (((hqd i).mul' (hqd i)).mul' (hqd i)) (by positivity)) (fun z => rfl) ?_
    field_simp
    ring
  have hq2 : q y = 1 + (y 0 * y 0 + y 1 * y 1 + y 2 * y 2) := by rw [hq]
  constructor
  · have n0 := ((HasPD.const (2 * ω2) 0 y).mul' (pd_coord 1 0 y)).add'
      ((((HasPD.const (2 * ω1) 0 y).mul' (pd_coord 0 0 y)).mul' (pd_coord 2 0 y)).neg')
    have n1 := ((HasPD.const (-2 * ω2) 1 y).mul' (pd_coord 0 1 y)).add'
      ((((HasPD.const (2 * ω1) 1 y).mul' (pd_coord 1 1 y)).mul' (pd_coord 2 1 y)).neg')
    have n2 := (HasPD.const ω1 2 y).mul' ((((pd_coord 0 2 y).mul' (pd_coord 0 2 y)).add'
      ((pd_coord 1 2 y).mul' (pd_coord 1 2 y))).add' ((((pd_coord 2 2 y).mul' (pd_coord 2 2 y)).neg').add' (HasPD.const (-1) 2 y)))
    have m0 := quot (fun z => 2 * ω2 * z 1 - 2 * ω1 * z 0 * z 2) 0 (-(2 * ω1 * y 2)) (pd_eq n0 (fun z => by ring) (by simp))
    have m1 := quot (fun z => -2 * ω2 * z 0 - 2 * ω1 * z 1 * z 2) 1 (-(2 * ω1 * y 2)) (pd_eq n1 (fun z => by ring) (by simp))
    have m2 := quot (fun z => ω1 * (z 0 ^ 2 + z 1 ^ 2 - z 2 ^ 2 - 1)) 2 (-(2 * ω1 * y 2)) (pd_eq n2 (fun z => by ring) (by simp; ring))
    refine ⟨![A * (-(2 * ω1 * y 2) * q y - 6 * y 0 * (2 * ω2 * y 1 - 2 * ω1 * y 0 * y 2)) / q y ^ 4,
        A * (-(2 * ω1 * y 2) * q y - 6 * y 1 * (-2 * ω2 * y 0 - 2 * ω1 * y 1 * y 2)) / q y ^ 4,
        A * (-(2 * ω1 * y 2) * q y - 6 * y 2 * (ω1 * (y 0 ^ 2 + y 1 ^ 2 - y 2 ^ 2 - 1))) / q y ^ 4], fun i => ?_, ?_⟩
    · fin_cases i
      · exact pd_eq m0 (fun z => (hB z 0).symm) rfl
      · exact pd_eq m1 (fun z => (hB z 1).symm) rfl
      · exact pd_eq m2 (fun z => (hB z 2).symm) rfl
    · simp only [Matrix.cons_val_zero, Matrix.cons_val_one, Matrix.cons_val]
      rw [hq2]
      ring
  · have r : ∀ i : Fin 3, HasPD (fun z => z 0 * z 0 + z 1 * z 1) i _ y :=
      fun i => ((pd_coord 0 i y).mul' (pd_coord 0 i y)).add' ((pd_coord 1 i y).mul' (pd_coord 1 i y))
    have t : ∀ i : Fin 3, HasPD hopfTorus i _ y := fun i => pd_eq ((r i).div' ((hqd i).mul' (hqd i)) (by positivity)) (fun z => by
      unfold hopfTorus; rw [hq]; congr 1 <;> ring) rfl
    refine ⟨_, t, ?_⟩
    rw [hB, hB, hB]
    simp
    field_simp
    rw [hq2]
    ring

/-- A point that meets the hypothesis of `C85_solovev_equilibrium`. -/
example : (0 : ℝ) < (![1, 0, 0] : V3) 0 ^ 2 + (![1, 0, 0] : V3) 1 ^ 2 := by simp

end Mrx.Props
