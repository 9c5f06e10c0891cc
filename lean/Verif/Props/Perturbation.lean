import Verif.Proofs.Case
import Verif.Model.Perturbation
import Verif.Props.Energy
import Verif.Props.Start
import Verif.Props.Reproduce
import Verif.Props.Mappings
import Verif.Spec.Maps

/-!
# C93: the island perturbation
-/

set_option linter.unusedVariables false
set_option linter.unusedSectionVars false

namespace Mrx.Props
open Real Matrix Spec Finset Quad

/-- **C93** the perturbation is radial in logical coordinates: it is the image under `DF` of a vector `(c, 0, 0)`, with `c` at most the Gaussian of the
configured location and width; where the map is regular, `(c, 0, 0)` are its logical components. -/
theorem C93_radial (F : V3 → V3) (loc width pol tor : ℝ) (p : V3) :
    ∃ c : ℝ, c = exp (-(p 0 - loc) ^ 2 / (2 * width ^ 2)) * sin (2 * π * pol * p 1) * sin (2 * π * tor * p 2) ∧
      |c| ≤ exp (-(p 0 - loc) ^ 2 / (2 * width ^ 2)) ∧ |c| ≤ 1 ∧ islandPert F loc width pol tor p = jacfwd F p *ᵥ ![c, 0, 0] ∧
      ((jacfwd F p).det ≠ 0 → (jacfwd F p)⁻¹ *ᵥ islandPert F loc width pol tor p = ![c, 0, 0]) := by
  have hb : |exp (-(p 0 - loc) ^ 2 / (2 * width ^ 2)) * sin (2 * π * pol * p 1) * sin (2 * π * tor * p 2)| ≤
      exp (-(p 0 - loc) ^ 2 / (2 * width ^ 2)) := by
    rw [abs_mul, abs_mul, abs_of_pos (exp_pos _), mul_assoc]
    refine mul_le_of_le_one_right (exp_pos _).le ?_
    exact mul_le_one₀ (abs_sin_le_one _) (abs_nonneg _) (abs_sin_le_one _)
  have he : islandPert F loc width pol tor p =
      jacfwd F p *ᵥ ![exp (-(p 0 - loc) ^ 2 / (2 * width ^ 2)) * sin (2 * π * pol * p 1) * sin (2 * π * tor * p 2), 0, 0] := by
    funext i
    simp only [islandPert, Pi.smul_apply, smul_eq_mul, mulVec, dotProduct, Fin.sum_univ_three, cons_val_zero, cons_val_one, mul_zero, add_zero]
    rw [show 2 * π * p 1 * pol = 2 * π * pol * p 1 by ring, show 2 * π * p 2 * tor = 2 * π * tor * p 2 by ring, mul_comm]
    simp
  refine ⟨_, rfl, hb, hb.trans (exp_le_one_iff.2 ?_), he, fun hd => ?_⟩
  · exact div_nonpos_of_nonpos_of_nonneg (by nlinarith [sq_nonneg (p 0 - loc)]) (by positivity)
  · rw [he, mulVec_mulVec, nonsing_inv_mul _ (isUnit_iff_ne_zero.2 hd), one_mulVec]

theorem jacfwd_periodic {F : V3 → V3} {j : Fin 3} (h : PeriodicIn j F) : PeriodicIn j (jacfwd F) := by
  intro x
  have e : (fun y => F (y + Pi.single j 1)) = F := funext h
  unfold jacfwd
  have := fderiv_comp_add_right (𝕜 := ℝ) (f := F) (x := x) (Pi.single j 1)
  rw [e] at this
  rw [this]

/-- **C93** for integer mode numbers and a map that is periodic in the angles it is a field on the torus. -/
theorem C93_periodic {F : V3 → V3} (h1 : PeriodicIn 1 F) (h2 : PeriodicIn 2 F) (loc width : ℝ) (pol tor : Int) :
    PeriodicIn 1 (islandPert F loc width pol tor) ∧ PeriodicIn 2 (islandPert F loc width pol tor) := by
  constructor
  · intro x
    simp only [islandPert, jacfwd_periodic h1 x]
    rw [show (x + Pi.single 1 1 : V3) 0 = x 0 by simp, show (x + Pi.single 1 1 : V3) 1 = x 1 + 1 by simp,
      show (x + Pi.single 1 1 : V3) 2 = x 2 by simp, show 2 * π * (x 1 + 1) * (pol : ℝ) = 2 * π * x 1 * pol + pol * (2 * π) by ring, sin_add_int_mul_two_pi]
  · intro x
    simp only [islandPert, jacfwd_periodic h2 x]
    rw [show (x + Pi.single 2 1 : V3) 0 = x 0 by simp, show (x + Pi.single 2 1 : V3) 1 = x 1 by simp,
      show (x + Pi.single 2 1 : V3) 2 = x 2 + 1 by simp, show 2 * π * (x 2 + 1) * (tor : ℝ) = 2 * π * x 2 * tor + tor * (2 * π) by ring, sin_add_int_mul_two_pi]

/-- **C93** it changes sign half a period further in either angle (so its average over each angle vanishes): the poloidal period is `1/pol`, the toroidal one `1/tor`. -/
theorem C93_mode_numbers {F : V3 → V3} (loc width pol tor : ℝ) (hp : pol ≠ 0) (ht : tor ≠ 0) (c : V3 → ℝ)
    (hc : ∀ p, c p = exp (-(p 0 - loc) ^ 2 / (2 * width ^ 2)) * sin (2 * π * pol * p 1) * sin (2 * π * tor * p 2)) (p : V3) :
    islandPert F loc width pol tor p = c p • jacfwd F p *ᵥ ![1, 0, 0] ∧ c (p + Pi.single 1 (1 / (2 * pol))) = -c p ∧
      c (p + Pi.single 2 (1 / (2 * tor))) = -c p := by
  obtain ⟨c', e, -, -, h, -⟩ := C93_radial F loc width pol tor p
  refine ⟨?_, ?_, ?_⟩
  · rw [h, hc, ← e, ← mulVec_smul]
    congr 1
    funext i
    fin_cases i <;> simp
  · rw [hc, hc, show (p + Pi.single 1 (1 / (2 * pol)) : V3) 0 = p 0 by simp,
      show (p + Pi.single 1 (1 / (2 * pol)) : V3) 1 = p 1 + 1 / (2 * pol) by simp, show (p + Pi.single 1 (1 / (2 * pol)) : V3) 2 = p 2 by simp,
      show 2 * π * pol * (p 1 + 1 / (2 * pol)) = 2 * π * pol * p 1 + π by field_simp, sin_add_pi]
    ring
  · rw [hc, hc, show (p + Pi.single 2 (1 / (2 * tor)) : V3) 0 = p 0 by simp,
      show (p + Pi.single 2 (1 / (2 * tor)) : V3) 1 = p 1 by simp, show (p + Pi.single 2 (1 / (2 * tor)) : V3) 2 = p 2 + 1 / (2 * tor) by simp,
      show 2 * π * tor * (p 2 + 1 / (2 * tor)) = 2 * π * tor * p 2 + π by field_simp, sin_add_pi]
    ring

/-- **C93 (finding)** a mode number zero means the zero field: there are no axisymmetric (`pert_tor_mode = 0`) perturbations; the code divides by its norm. -/
theorem C93_zero_mode (F : V3 → V3) (loc width pol tor : ℝ) (h : pol = 0 ∨ tor = 0) : islandPert F loc width pol tor = 0 := by
  funext p
  unfold islandPert
  rcases h with rfl | rfl <;> simp

section
variable {ns ps : Nat × Nat × Nat} {q : Nat} {types : String × String × String} {F : V3 → V3} {polar dirichlet : Bool} {D : DeRham}

/-- The quadrature points of a sequence with a constant third direction have `ζ = 1/2`. -/
theorem points_z_half (h : Admissible ns ps q types F polar dirichlet D) (hz : types.2.2 = "constant") (x : ℝ × ℝ × ℝ) (hx : x ∈ D.S.Q.x) : x.2.2 = 1 / 2 := by
  obtain ⟨m0, _, _, _, hQ⟩ := Seq.mk?_inv (Admissible.seq h.built)
  obtain ⟨_, hd, s0, s1, s2, _⟩ := Form.mk?_inv m0
  unfold Quad.Rule.mk? at hQ
  split at hQ
  case h_2 => cases hQ
  rename_i rx ry rz hx' hy' hz'
  have hQ' := Except.ok.inj hQ
  rw [← hQ'] at hx
  simp only [Quad.Rule.ofRules, List.mem_flatMap, List.mem_map] at hx
  obtain ⟨b, hb, a, ha, c, hc, rfl⟩ := hx
  have hty : D.S.L0.Λ2.type = "constant" := by rw [← hz]; exact (Form.spline_mk?_ok s2).2.2
  unfold selectQuadrature at hz'
  rw [hty] at hz'
  simp only [show ¬ ("constant" = "clamped") by decide, show ¬ ("constant" = "periodic") by decide,
    show ¬ ("constant" = "fourier") by decide, if_false, spectralQuad, show (1 ≤ 1 ∧ 1 ≤ 10) by decide, and_self, if_true] at hz'
  obtain rfl := Except.ok.inj hz'
  obtain ⟨a', ha', rfl⟩ := List.mem_map.mp hc
  have : a' = 0 := by
    have : (nodesAndWeights 1).1 = [0] := by decide +kernel
    rw [this] at ha'
    simpa using ha'
  subst this
  norm_num

/-- **C93 (finding)** in an axisymmetric run (`n_zeta = 1`) the perturbation is invisible: the only toroidal quadrature point is `ζ = 1/2`, a zero of
`sin(2π n ζ)` for every integer mode number. The projected perturbation is the zero vector, which the code divides by its norm; in floating point
the result is made of rounding errors, scaled up to `pert_strength`. -/
theorem C93_axisymmetric_lost (h : Admissible ns ps q types F polar dirichlet D) (hz : types.2.2 = "constant") (X : Matrix (Fin D.m3) (Fin D.m3) ℝ)
    (loc width pol : ℝ) (tor : Int) :
    D.divfreeProjection X (islandPert F loc width pol tor) = 0 ∧ D.norm2 (D.divfreeProjection X (islandPert F loc width pol tor)) = 0 := by
  have hp : D.projector2 (islandPert F loc width pol tor) = D.projector2 0 := by
    refine dot_ext fun a => ?_
    rw [h.proj2_l2, h.proj2_l2]
    unfold l2Product
    refine sum_congr rfl fun i hi => sum_congr rfl fun j _ => ?_
    have : D.S.Q.x.getD i 0 ∈ D.S.Q.x := by
      have hl := h.points_len
      have hi' : i < D.S.Q.x.length := by rw [hl]; exact mem_range.mp hi
      rw [List.getD_eq_getElem?_getD, List.getElem?_eq_getElem hi']
      exact List.getElem_mem _
    have hz := points_z_half h hz _ this
    have : islandPert F loc width pol tor (toV3 (D.S.Q.x.getD i 0)) = 0 := by
      unfold islandPert
      rw [show toV3 (D.S.Q.x.getD i 0) 2 = 1 / 2 from hz, show 2 * π * (1 / 2 : ℝ) * (tor : ℝ) = tor * π by ring, sin_int_mul_pi]
      dsimp only
      rw [mul_zero, zero_smul]
    rw [this]
    rfl
  have h0 : D.projector2 0 = 0 := by
    refine dot_ext fun a => ?_
    rw [h.proj2_l2, dotProduct_zero]
    unfold l2Product
    exact sum_eq_zero fun i _ => sum_eq_zero fun j _ => by simp
  have hd : D.divfreeProjection X (islandPert F loc width pol tor) = 0 := by
    unfold DeRham.divfreeProjection
    rw [hp, h0, mulVec_zero, mulVec_zero]
  exact ⟨hd, by rw [hd]; unfold DeRham.norm2; simp⟩

/-- **C93** what perturbing a field does, for every perturbation field whose projection is not zero: the field moves by exactly `pert_strength` in the `L2` norm, in
the direction of the projected perturbation, and the energy changes by the work done plus `pert_strength²/2`; the divergence is not changed. -/
theorem C93_applied {T : Stepper} (h : Admissible ns ps q types F polar dirichlet T.D) (hX : IsPinv T.D.dd3 T.pinv) (strength : ℝ) (dB : V3 → V3) (B : T.Field)
    (hd : T.D.divfreeProjection T.pinv dB ≠ 0) :
    ∃ d : T.Field, T.D.norm2 d = 1 ∧ T.D.strongDiv *ᵥ d = 0 ∧ (∃ c : ℝ, 0 < c ∧ d = c • T.D.divfreeProjection T.pinv dB) ∧
      T.perturb strength dB B = B + strength • d ∧ T.D.norm2 (T.perturb strength dB B - B) = |strength| ∧
      T.D.strongDiv *ᵥ T.perturb strength dB B = T.D.strongDiv *ᵥ B ∧
      T.D.energy (T.perturb strength dB B) = T.D.energy B + strength * (B ⬝ᵥ T.D.M2 *ᵥ d) + strength ^ 2 / 2 := by
  have m2 := (C31_mass_matrices_definite h).2.2.1
  have hdiv : T.D.strongDiv *ᵥ T.D.divfreeProjection T.pinv dB = 0 := (C77_projection h hX).1 dB
  have hp : 0 < T.D.norm2 (T.D.divfreeProjection T.pinv dB) :=
    lt_of_le_of_ne (Real.sqrt_nonneg _) fun e => hd ((C74_definite h _).2.2.1.mp e.symm)
  have hn := norm_normalize h _ hd
  have hpe : T.perturb strength dB B = B + strength • T.D.normalize (T.D.divfreeProjection T.pinv dB) := rfl
  refine ⟨T.D.normalize (T.D.divfreeProjection T.pinv dB), hn, div_normalize _ hdiv, ⟨_, inv_pos.2 hp, rfl⟩, hpe, ?_, ?_, ?_⟩
  · rw [hpe, add_sub_cancel_left, (C74_norm_is_norm h 0 _ _).1, hn, mul_one]
  · rw [hpe, mulVec_add, mulVec_smul, div_normalize _ hdiv, smul_zero, add_zero]
  · have hq : T.D.normalize (T.D.divfreeProjection T.pinv dB) ⬝ᵥ T.D.M2 *ᵥ T.D.normalize (T.D.divfreeProjection T.pinv dB) = 1 := by
      have := congrArg (· ^ 2) hn
      unfold DeRham.norm2 at this
      simp only [one_pow] at this
      rwa [Real.sq_sqrt (m2.psd.2 _)] at this
    rw [hpe]
    generalize T.D.normalize (T.D.divfreeProjection T.pinv dB) = d at hq
    unfold DeRham.energy
    simp only [mulVec_add, mulVec_smul, dotProduct_add, add_dotProduct, dotProduct_smul, smul_dotProduct, smul_eq_mul]
    rw [hq, sym_dot m2.1 d B]
    norm_num
    ring

/-- **C93** the start of a run with `apply_pert_after = 0` is the unperturbed start, perturbed as the loop would do it; with any other value no perturbation is applied at
the start. -/
theorem C93_initial {T : Stepper} (after : Int) (strength : ℝ) (B dB : V3 → V3) :
    (after = 0 → 0 < strength → T.D.projectedStart T.pinv after strength B dB =
      T.perturb strength dB (T.D.projectedStart T.pinv 1 strength B dB)) ∧
    (after ≠ 0 ∨ strength ≤ 0 → T.D.projectedStart T.pinv after strength B dB = T.D.normalize (T.D.divfreeProjection T.pinv B)) := by
  constructor
  · rintro rfl hs
    unfold DeRham.projectedStart
    rw [if_pos ⟨rfl, hs⟩, if_neg (fun hh => one_ne_zero hh.1)]
    rfl
  · intro hn
    unfold DeRham.projectedStart
    rw [if_neg]
    rintro ⟨a, b⟩
    rcases hn with hn | hn
    · exact hn a
    · exact absurd b (not_lt.2 hn)

/-- An axisymmetric polar sequence as in the scripts, to which C93_axisymmetric_lost applies; the perturbation itself is not zero there. -/
example : (∃ D : DeRham, Admissible (8, 8, 1) (3, 3, 0) 4 ("clamped", "periodic", "constant") (fun y => y) true true D) ∧
    islandPert (fun y => y) (1 / 2) 0.07 2 1 ![1 / 2, 1 / 8, 1 / 4] = ![1, 0, 0] := by
  constructor
  · exact Admissible.exists (ns := (8, 8, 1)) (ps := (3, 3, 0)) (q := 4) (types := ("clamped", "periodic", "constant"))
      (fun y => y) true true (by norm_num) (by unfold DirOK; norm_num) (by unfold DirOK; norm_num) (by unfold DirOK; norm_num)
      (by simp) fun x => by rw [jacobianDeterminant_id]; norm_num
  · obtain ⟨c, hc, -, -, h, -⟩ := C93_radial (fun y => y) (1 / 2) 0.07 2 1 ![1 / 2, 1 / 8, 1 / 4]
    rw [h]
    have hj : jacfwd (fun y : V3 => y) ![1 / 2, 1 / 8, 1 / 4] = 1 := by
      have := jacfwd_mulVec (1 : M33) (![1 / 2, 1 / 8, 1 / 4] : V3)
      simpa using this
    have e : c = 1 := by
      rw [hc]
      simp only [cons_val_zero, cons_val_one, Matrix.cons_val]
      rw [show 2 * π * 2 * (1 / 8 : ℝ) = π / 2 by ring, show 2 * π * 1 * (1 / 4 : ℝ) = π / 2 by ring, sin_pi_div_two]
      norm_num
    rw [hj, one_mulVec, e]

end

/-- Cases of the theorems of C93: the script's toroid and perturbation, and an axisymmetric sequence. -/
example := C93_periodic (C59_periodic (1 / 3) 1 1).1 (C59_periodic (1 / 3) 1 1).2 0.5 0.07 2 1
example := C93_mode_numbers (F := toroidMap (1 / 3) 1 1) 0.5 0.07 2 1 (by norm_num) (by norm_num) _ (fun _ => rfl)
example := C93_zero_mode (toroidMap (1 / 3) 1 1) 0.5 0.07 2 0 (Or.inr rfl)
example (X) := C93_axisymmetric_lost (Admissible.exists (ns := (8, 8, 1)) (ps := (3, 3, 0)) (q := 4) (types := ("clamped", "periodic", "constant"))
      Case.map true true (by norm_num) (by unfold DirOK; norm_num) (by unfold DirOK; norm_num) (by unfold DirOK; norm_num)
      (by simp) fun x => by rw [Case.map_det]; norm_num).choose_spec rfl X 0.5 0.07 2 1
/-- The hypothesis of `C93_applied` holds for every `dB` that is the field of a nonzero curl. -/
example (polar : Bool) (A : Fin (Case.D polar true).m1 → ℝ) (hA : (Case.D polar true).strongCurl *ᵥ A ≠ 0) :=
  C93_applied (T := ⟨Case.D polar true, (pinv_exists (Case.D polar true).dd3).choose, fun _ b => b, 1, false, false⟩) (Case.adm polar true) (pinv_exists _).choose_spec (1 / 10)
    ((Case.D polar true).phys2 ((Case.D polar true).strongCurl *ᵥ A)) 0
    (by
      show (Case.D polar true).divfreeProjection _ _ ≠ 0
      rw [(C77_projection (Case.adm polar true) (pinv_exists _).choose_spec).2.2 _ (by
        rw [mulVec_mulVec, (C33_exactness (Case.adm polar true)).2.1, zero_mulVec])]
      exact hA)

end Mrx.Props
