import Verif.Proofs.ByParts3
import Verif.Props.Diagnostics

/-! # Helicity balance of an arbitrary step, with the integration-by-parts defects of the rule -/

set_option linter.unusedSectionVars false
set_option linter.unusedVariables false

namespace Mrx.Props
open Finset Spec Matrix DeRham

/-- Sum of the absolute values of a vector. -/
noncomputable def ell1 {n : Nat} (v : Fin n → ℝ) : ℝ := ∑ i, |v i|

theorem ell1_form (d : Dims) (hk : Dims.validDegree d.k) (v : Fin d.n → ℝ) :
    ell1 v = ∑ c ∈ range 3, size3 (d.cshape c).1 (d.cshape c).2.1 (d.cshape c).2.2 (coef d v c) := by
  have := sum_fin_form d hk (fun a => |v a|) (fun _ => 1)
  simp only [one_mul, mul_one] at this
  unfold ell1 size3
  rw [this]
  refine Finset.sum_congr rfl fun c _ => Finset.sum_congr rfl fun i _ => Finset.sum_congr rfl fun j _ => Finset.sum_congr rfl fun l _ => ?_
  unfold coef
  split <;> simp

theorem size0_eq {S : Seq ℝ} (hw : S.WF) (v : Fin S.L0.dims.n → ℝ) : S.size0 (coef S.L0.dims v) = ell1 v := by
  rw [ell1_form _ hw.f0.k]
  simp [Finset.sum_range_succ, Dims.cshape, Dims.shape, hw.k0, Seq.size0, size3]

theorem size1_eq {S : Seq ℝ} (hw : S.WF) (v : Fin S.L1.dims.n → ℝ) : S.size1 (coef S.L1.dims v) = ell1 v := by
  have hd := (Seq.nr_eq hw).1
  rw [ell1_form _ hw.f1.k]
  simp [Finset.sum_range_succ, Dims.cshape, Dims.shape, hd, Seq.size1]

theorem size2_eq {S : Seq ℝ} (hw : S.WF) (v : Fin S.L2.dims.n → ℝ) : S.size2 (coef S.L2.dims v) = ell1 v := by
  have hd := (Seq.nr_eq hw).2.1
  rw [ell1_form _ hw.f2.k]
  simp [Finset.sum_range_succ, Dims.cshape, Dims.shape, hd, Seq.size2]

section
variable {ns ps : Nat × Nat × Nat} {q : Nat} {types : String × String × String} {F : V3 → V3} {D : DeRham}
  (h : Admissible ns ps q types F true true D) (hc : Compatible ns types true)
include h hc

theorem rings (y0 : Fin D.m0 → ℝ) (y1 : Fin D.m1 → ℝ) (y2 : Fin D.m2 → ℝ) :
    (∀ j < D.S.L0.dims.nt, ∀ l < D.S.L0.dims.nz, coef D.S.L0.dims (D.E0ᵀ *ᵥ y0) 0 (D.S.L0.dims.nr - 1) j l = 0) ∧
    D.S.Ring1 (coef D.S.L1.dims (D.E1ᵀ *ᵥ y1)) ∧
    (∀ j < D.S.L0.dims.dt, ∀ l < D.S.L0.dims.dz, coef D.S.L2.dims (D.E2ᵀ *ᵥ y2) 0 (D.S.L0.dims.nr - 1) j l = 0) ∧
    (∀ j < D.S.L0.dims.dt, ∀ l < D.S.L0.dims.dz, coef D.S.L2.dims (D.E2ᵀ *ᵥ y2) 0 0 j l = 0) := by
  have hd := h.dims0
  have hdiff := h.diffOK hc
  have hw := h.quad.wf
  have d1 := (Seq.nr_eq hw).1
  obtain ⟨p0, p1, p2, p3⟩ := h.polarSettings rfl
  have enr : D.S.L0.dims.nr = ns.1 := by rw [hd]
  have ent : D.S.L0.dims.nt = ns.2.1 := by rw [hd]
  have enz : D.S.L0.dims.nz = ns.2.2 := by rw [hd]
  have hdt := hdiff.dt
  have hdz := hdiff.dz
  obtain ⟨S, hS, ⟨hp, rfl⟩ | ⟨hp, rfl⟩⟩ := Admissible.cases' h.built
  swap
  · cases hp
  have hz0 : S.L1.dims.dz = ns.2.2 := by rw [← enz, ← hdz, show S.L1.dims = _ from d1]
  have r0 := (C28_range_is_polar_forms 0 ns ps _ S.L0 p0 true _).mp ⟨y0, rfl⟩
  have r1 := (C28_range_is_polar_forms 1 ns ps _ S.L1 p1 true _).mp ⟨y1, rfl⟩
  have r2 := (C28_range_is_polar_forms 2 ns ps _ S.L2 p2 true _).mp ⟨y2, rfl⟩
  rw [hz0] at r1
  replace hdt : S.L0.dims.dt = S.L0.dims.nt := hdt
  replace hdz : S.L0.dims.dz = S.L0.dims.nz := hdz
  obtain ⟨b, c, hbc⟩ := r1.1.1
  obtain ⟨b', c', hbc'⟩ := r2.1.1
  refine ⟨?_, ⟨?_, ?_, ?_⟩, ?_, ?_⟩
  · rw [enr, ent, enz]; exact r0.2 rfl
  · intro j hj l hl
    exact (hbc j (by have : j < S.L0.dims.nt := hdt ▸ hj; rw [← ent]; exact this) l (by rw [← enz]; exact hl)).2.1
  · intro j hj l hl
    rw [enr]
    exact r1.1.2 rfl j (by have : j < S.L0.dims.nt := hdt ▸ hj; rw [← ent]; exact this) l (by rw [← enz]; exact hl)
  · intro j hj l hl
    rw [enr]
    exact r1.2.2 rfl j (by rw [← ent]; exact hj) l (by have : l < S.L0.dims.nz := hdz ▸ hl; rw [← enz]; exact this)
  · intro j hj l hl
    rw [enr]
    exact r2.1.2 rfl j (by have : j < S.L0.dims.nt := hdt ▸ hj; rw [← ent]; exact this) l
      (by have : l < S.L0.dims.nz := hdz ▸ hl; rw [← enz]; exact this)
  · intro j hj l hl
    exact (hbc' j (by have : j < S.L0.dims.nt := hdt ▸ hj; rw [← ent]; exact this) l
      (by have : l < S.L0.dims.nz := hdz ▸ hl; rw [← enz]; exact this)).1

omit hc in
theorem M12_points (a : Fin D.m1 → ℝ) (b : Fin D.m2 → ℝ) : a ⬝ᵥ D.M12 *ᵥ b = ∑ j ∈ range D.S.nq, D.S.Q.w.getD j 0 *
    ∑ k ∈ range 3, evaluateAtXq D.S.getLambda1 (D.E1ᵀ *ᵥ a) j k * evaluateAtXq D.S.getLambda2 (D.E2ᵀ *ᵥ b) j k := by
  unfold DeRham.M12
  rw [mixed_dot]
  have hq : D.nq = D.S.nq := h.quad.len
  rw [hq]
  refine Finset.sum_congr rfl fun j hj => ?_
  rw [smul_mulVec, one_mulVec, dotProduct_smul, smul_eq_mul]
  unfold dotProduct
  rw [Finset.sum_range]
  rfl

theorem sigma_bound {ε L : ℝ} (hb : D.S.ByParts ε L) (a b : Fin D.m1 → ℝ) :
    |a ⬝ᵥ D.M12 *ᵥ (D.strongCurl *ᵥ b) - b ⬝ᵥ D.M12 *ᵥ (D.strongCurl *ᵥ a)|
      ≤ ε * 4 * L ^ 2 * (ell1 (D.E1ᵀ *ᵥ a) * ell1 (D.E1ᵀ *ᵥ b)) := by
  have ex := h.exact hc
  have := Seq.curl_symm hb (D.E1ᵀ *ᵥ a) (D.E1ᵀ *ᵥ b) (rings h hc 0 a 0).2.1 (rings h hc 0 b 0).2.1
  rw [size1_eq hb.wf, size1_eq hb.wf] at this
  refine le_trans (le_of_eq ?_) this
  rw [M12_points h, M12_points h, ← Finset.sum_sub_distrib]
  congr 1
  refine Finset.sum_congr rfl fun j _ => ?_
  rw [← mul_sub]
  congr 2
  · exact Finset.sum_congr rfl fun k hk => by rw [(curl_spec ex b).1 j k (mem_range.mp hk)]
  · exact Finset.sum_congr rfl fun k hk => by rw [(curl_spec ex a).1 j k (mem_range.mp hk)]

theorem gamma_bound {ε L : ℝ} (hb : D.S.ByParts ε L) (ψ : Fin D.m0 → ℝ) (B : Fin D.m2 → ℝ) (hB : D.strongDiv *ᵥ B = 0) :
    |(D.strongGrad *ᵥ ψ) ⬝ᵥ D.M12 *ᵥ B| ≤ ε * 4 * L ^ 2 * (ell1 (D.E0ᵀ *ᵥ ψ) * ell1 (D.E2ᵀ *ᵥ B)) := by
  have ex := h.exact hc
  have := Seq.grad_div hb (D.E0ᵀ *ᵥ ψ) (D.E2ᵀ *ᵥ B) (rings h hc ψ 0 B).1 (rings h hc ψ 0 B).2.2.1 (rings h hc ψ 0 B).2.2.2
  rw [size0_eq hb.wf, size2_eq hb.wf] at this
  refine le_trans (le_of_eq ?_) this
  rw [M12_points h]
  congr 1
  refine Finset.sum_congr rfl fun j _ => ?_
  have z : evaluateAtXq D.S.getDLambda2 (D.E2ᵀ *ᵥ B) j 0 = 0 := by
    rw [(div_spec ex B).1, hB, mulVec_zero]
    unfold evaluateAtXq
    simp
  rw [z, mul_zero, zero_add]
  congr 1
  exact Finset.sum_congr rfl fun k hk => by rw [(grad_spec ex ψ).1 j k (mem_range.mp hk)]

end

section
variable {ns ps : Nat × Nat × Nat} {q : Nat} {types : String × String × String} {F : V3 → V3} {polar dirichlet : Bool} {D : DeRham}
  (h : Admissible ns ps q types F polar dirichlet D)
include h

/-- If `dd0` and `dd1` are invertible, the vector potential of `curl e` is `e + grad (dd0⁻¹ (weak_div e))`. -/
theorem vectorPotential_curl_eq (h0 : IsUnit D.dd0.det) (h1 : IsUnit D.dd1.det) (e : Fin D.m1 → ℝ) :
    D.vectorPotential (D.strongCurl *ᵥ e) = e + D.strongGrad *ᵥ (D.dd0⁻¹ *ᵥ (D.weakDiv *ᵥ e)) := by
  have a1 := (C34_laplacians_are_hodge h).2.1
  have com := (C34_laplacians_commute h).1
  have hw : D.weakCurl *ᵥ (D.strongCurl *ᵥ e) = D.dd1 *ᵥ (e + D.strongGrad *ᵥ (D.dd0⁻¹ *ᵥ (D.weakDiv *ᵥ e))) := by
    rw [mulVec_add, mulVec_mulVec _ D.dd1 D.strongGrad, com, ← mulVec_mulVec, mulVec_mulVec _ D.dd0, mul_nonsing_inv _ h0, one_mulVec]
    rw [a1, sub_mulVec, ← mulVec_mulVec, ← mulVec_mulVec, sub_add_cancel]
  unfold DeRham.vectorPotential
  rw [hw, mulVec_mulVec, nonsing_inv_mul _ h1, one_mulVec]

/-- Cauchy-Schwarz for the pairing of 1-forms and 2-forms. -/
theorem cauchy12 (a : Fin D.m1 → ℝ) (b : Fin D.m2 → ℝ) : |a ⬝ᵥ D.M12 *ᵥ b| ≤ √(a ⬝ᵥ D.M1 *ᵥ a) * D.norm2 b := by
  have e1 := (C31_mass_is_l2_product h).2.1 a a
  have e2 := (C31_mass_is_l2_product h).2.2.1 b b
  have e3 := M12_l2 h a b
  rw [h.l2_eq] at e1 e2 e3
  unfold DeRham.norm2
  rw [← Real.sqrt_mul (by
    rw [e1]
    refine Finset.sum_nonneg fun j hj => mul_nonneg (Finset.sum_nonneg fun k _ => mul_self_nonneg _) ?_
    obtain ⟨_, _, _, _, _, _, hpos⟩ := h.metricAt (mem_range.mp hj)
    exact mul_nonneg hpos.le (w_pos h.core (mem_range.mp hj)).le)]
  refine Real.abs_le_sqrt ?_
  rw [e1, e2, e3]
  -- weighted sums
  have key : ∀ (s : Finset Nat) (x y : Nat → Fin 3 → ℝ) (w : Nat → ℝ), (∀ j ∈ s, 0 ≤ w j) →
      (∑ j ∈ s, (x j ⬝ᵥ y j) * w j) ^ 2 ≤ (∑ j ∈ s, (x j ⬝ᵥ x j) * w j) * ∑ j ∈ s, (y j ⬝ᵥ y j) * w j := by
    intro s x y w hw
    have cs := Finset.sum_mul_sq_le_sq_mul_sq (s ×ˢ (Finset.univ : Finset (Fin 3))) (fun p => x p.1 p.2 * √(w p.1)) (fun p => y p.1 p.2 * √(w p.1))
    rw [Finset.sum_product, Finset.sum_product, Finset.sum_product] at cs
    have r : ∀ (u v : Nat → Fin 3 → ℝ), ∑ j ∈ s, (u j ⬝ᵥ v j) * w j = ∑ j ∈ s, ∑ k : Fin 3, (u j k * √(w j)) * (v j k * √(w j)) := by
      intro u v
      refine Finset.sum_congr rfl fun j hj => ?_
      unfold dotProduct
      rw [Finset.sum_mul]
      refine Finset.sum_congr rfl fun k _ => ?_
      have := Real.mul_self_sqrt (hw j hj)
      rw [show u j k * √(w j) * (v j k * √(w j)) = u j k * v j k * (√(w j) * √(w j)) by ring, this]
    rw [r, r, r]
    simpa only [sq] using cs
  exact key _ (fun j => D.phys1 a (D.x j)) (fun j => D.phys2 b (D.x j)) _ fun j hj => by
    obtain ⟨_, _, _, _, _, _, hpos⟩ := h.metricAt (mem_range.mp hj)
    exact mul_nonneg hpos.le (w_pos h.core (mem_range.mp hj)).le

end

section
variable {ns ps : Nat × Nat × Nat} {q : Nat} {types : String × String × String} {F : V3 → V3} {polar dirichlet : Bool} {T : Stepper}
  (h : Admissible ns ps q types F polar dirichlet T.D)
include h

/-- The electric field does resistive work only on the midpoint field. -/
theorem electric_work (s : T.St) : T.E s ⬝ᵥ T.D.M12 *ᵥ T.Bmid s = -s.eta * (T.J s ⬝ᵥ T.D.M12 *ᵥ T.Bmid s) := by
  have := ideal_orthogonal h { s with eta := 0 } rfl
  have e : T.E { s with eta := 0 } = T.E s + s.eta • T.J s := by
    show T.D.M1⁻¹ *ᵥ T.D.P2x1to1 (T.u s) (T.Hh s) - (0 : ℝ) • T.J s = _
    unfold Stepper.E
    rw [zero_smul, sub_zero, sub_add_cancel]
  have em : T.Bmid { s with eta := 0 } = T.Bmid s := rfl
  rw [e, em, add_dotProduct, smul_dotProduct, smul_eq_mul] at this
  linarith

/-- Balance of the helicity for an arbitrary state (converged or not, ideal or resistive). -/
theorem helicity_balance (h0 : IsUnit T.D.dd0.det) (h1 : IsUnit T.D.dd1.det) (s : T.St) :
    T.D.helicity (T.Bnext s) - T.D.helicity s.Bn + 2 * s.dt * s.eta * (T.J s ⬝ᵥ T.D.M12 *ᵥ T.Bmid s) =
      s.dt * (T.E s ⬝ᵥ T.D.M12 *ᵥ (T.Bnext s - s.Bguess)
      + (T.D.vectorPotential s.Bn ⬝ᵥ T.D.M12 *ᵥ (T.D.strongCurl *ᵥ T.D.vectorPotential (T.D.strongCurl *ᵥ T.E s))
        - T.D.vectorPotential (T.D.strongCurl *ᵥ T.E s) ⬝ᵥ T.D.M12 *ᵥ (T.D.strongCurl *ᵥ T.D.vectorPotential s.Bn))
      + (T.D.strongGrad *ᵥ (T.D.dd0⁻¹ *ᵥ (T.D.weakDiv *ᵥ T.E s))) ⬝ᵥ T.D.M12 *ᵥ (s.Bn + T.Bnext s)) := by
  have hψ := vectorPotential_curl_eq h h0 h1 (T.E s)
  have hcurl := C47_potential_of_invertible h h1 (T.E s)
  have hw := electric_work h s
  generalize T.D.dd0⁻¹ *ᵥ (T.D.weakDiv *ᵥ T.E s) = ψ at *
  have hN : T.Bnext s = s.Bn + s.dt • (T.D.strongCurl *ᵥ T.E s) := rfl
  have hA' : T.D.vectorPotential (T.Bnext s) = T.D.vectorPotential s.Bn + s.dt • T.D.vectorPotential (T.D.strongCurl *ᵥ T.E s) := by
    rw [hN]
    simp only [DeRham.vectorPotential, mulVec_add, mulVec_smul]
  have hm : T.Bmid s = (1 / 2 : ℝ) • (s.Bguess + s.Bn) := rfl
  have hw2 : 2 * s.dt * s.eta * (T.J s ⬝ᵥ T.D.M12 *ᵥ T.Bmid s) = -2 * s.dt * (T.E s ⬝ᵥ T.D.M12 *ᵥ T.Bmid s) := by
    rw [hw]; ring
  rw [hw2, hm, helicity_eq h, helicity_eq h, hA', hcurl]
  have hG : T.D.strongGrad *ᵥ ψ = T.D.vectorPotential (T.D.strongCurl *ᵥ T.E s) - T.E s := by rw [hψ, add_sub_cancel_left]
  rw [hG, hN]
  generalize T.D.vectorPotential (T.D.strongCurl *ᵥ T.E s) = a at *
  generalize T.D.vectorPotential s.Bn = A at *
  simp only [mulVec_add, mulVec_sub, mulVec_smul, smul_add, dotProduct_add, dotProduct_sub, add_dotProduct, sub_dotProduct, smul_dotProduct,
    dotProduct_smul, smul_eq_mul, hcurl]
  ring

end

section
variable {ns ps : Nat × Nat × Nat} {q : Nat} {types : String × String × String} {F : V3 → V3} {T : Stepper}
  (h : Admissible ns ps q types F true true T.D) (hc : Compatible ns types true)
include h hc

/-- Bound of the helicity balance in terms of the integration-by-parts defect of the rule. -/
theorem helicity_drift {ε L : ℝ} (hb : T.D.S.ByParts ε L) (s : T.St) (hdiv : T.D.strongDiv *ᵥ s.Bn = 0) :
    |T.D.helicity (T.Bnext s) - T.D.helicity s.Bn + 2 * s.dt * s.eta * (T.J s ⬝ᵥ T.D.M12 *ᵥ T.Bmid s)| ≤
      |s.dt| * (√(T.E s ⬝ᵥ T.D.M1 *ᵥ T.E s) * T.D.norm2 (T.Bnext s - s.Bguess)
      + ε * 4 * L ^ 2 * (ell1 (T.D.E1ᵀ *ᵥ T.D.vectorPotential s.Bn) * ell1 (T.D.E1ᵀ *ᵥ T.D.vectorPotential (T.D.strongCurl *ᵥ T.E s))
        + ell1 (T.D.E0ᵀ *ᵥ (T.D.dd0⁻¹ *ᵥ (T.D.weakDiv *ᵥ T.E s))) * ell1 (T.D.E2ᵀ *ᵥ (s.Bn + T.Bnext s)))) := by
  obtain ⟨v0, v1, _⟩ := C73_laplacians_invertible_iff h ⟨hc.r, hc.t, hc.z⟩
  have hs : ns.1 ≤ ns.2.1 := by have := hc.nr; have := (h.polar rfl).2.2.2.2; omega
  rw [helicity_balance h (v0.mpr ⟨rfl, fun _ => hs⟩) (v1.mpr ⟨rfl, rfl, hs⟩), abs_mul]
  have dc := (C33_exactness h).2.1
  have hd2 : T.D.strongDiv *ᵥ (s.Bn + T.Bnext s) = 0 := by
    show T.D.strongDiv *ᵥ (s.Bn + (s.Bn + s.dt • (T.D.strongCurl *ᵥ T.E s))) = 0
    rw [mulVec_add, mulVec_add, mulVec_smul, hdiv, mulVec_mulVec, dc, zero_mulVec, smul_zero, add_zero, add_zero]
  refine mul_le_mul_of_nonneg_left ?_ (abs_nonneg _)
  refine (abs_add_three _ _ _).trans ?_
  have b1 := cauchy12 h (T.E s) (T.Bnext s - s.Bguess)
  have b2 := sigma_bound h hc hb (T.D.vectorPotential s.Bn) (T.D.vectorPotential (T.D.strongCurl *ᵥ T.E s))
  have b3 := gamma_bound h hc hb (T.D.dd0⁻¹ *ᵥ (T.D.weakDiv *ᵥ T.E s)) (s.Bn + T.Bnext s) hd2
  linarith

end
end Mrx.Props
