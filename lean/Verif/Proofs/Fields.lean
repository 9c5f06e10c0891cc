import Verif.Proofs.Exists
import Verif.Spec.Fields
import Verif.Props.Forms

/-! # Tabulated fields are the discrete functions; assembled forms are L2 products -/

set_option linter.unusedSectionVars false
set_option linter.unusedVariables false

namespace Mrx
open Finset Jax Spec Matrix Quad Props DeRham

theorem fromV3_toV3 (x : ℝ × ℝ × ℝ) : fromV3 (toV3 x) = x := by simp [fromV3, toV3]

theorem evaluateAtXq_eq_discrete {g : Getter} {m : Nat} {Λ : Form ℝ} (E : Matrix (Fin m) (Fin Λ.dims.n) ℝ) (u : Fin m → ℝ) {j k : Nat}
    {x : ℝ × ℝ × ℝ} (h : ∀ i < Λ.dims.n, g i j k = Λ.evaluate x i k) :
    evaluateAtXq g (Eᵀ *ᵥ u) j k = discreteFunction Λ u E x k := by
  unfold evaluateAtXq discreteFunction dotProduct
  refine Finset.sum_congr rfl fun i _ => ?_
  rw [h i i.2, mulVec_transpose, mul_comm]

namespace Admissible
variable {ns ps : Nat × Nat × Nat} {q : Nat} {types : String × String × String} {F : V3 → V3} {polar dirichlet : Bool}
  {D : DeRham} (h : Admissible ns ps q types F polar dirichlet D)
include h

theorem getElem {j : Nat} (hj : j < D.nq) : D.S.Q.x[j]? = some (D.S.point j) := by
  have hj' := hj
  rw [← h.points_len] at hj'
  unfold Seq.point
  rw [List.getD_eq_getElem?_getD, List.getElem?_eq_getElem hj']
  rfl

theorem x_eq (j : Nat) : D.x j = toV3 (D.S.point j) := rfl

theorem eval0 (u : Fin D.m0 → ℝ) {j : Nat} (hj : j < D.nq) :
    (fun k : Fin 1 => evaluateAtXq D.S.getLambda0 (D.E0ᵀ *ᵥ u) j k) = D.form0 u (D.x j) := by
  have := (C19_getters_agree ns ps q types D.S (seq h.built) j _ (h.getElem hj)).1
  funext k
  have hk : (k : Nat) = 0 := by omega
  unfold form0
  rw [x_eq h, fromV3_toV3, hk]
  exact evaluateAtXq_eq_discrete D.E0 u this

theorem eval1 (u : Fin D.m1 → ℝ) {j : Nat} (hj : j < D.nq) :
    (fun k : Fin 3 => evaluateAtXq D.S.getLambda1 (D.E1ᵀ *ᵥ u) j k) = D.form1 u (D.x j) := by
  have := (C19_getters_agree ns ps q types D.S (seq h.built) j _ (h.getElem hj)).2.1
  funext k
  unfold form1
  rw [x_eq h, fromV3_toV3]
  exact evaluateAtXq_eq_discrete D.E1 u fun i hi => this i hi k k.2

theorem eval2 (u : Fin D.m2 → ℝ) {j : Nat} (hj : j < D.nq) :
    (fun k : Fin 3 => evaluateAtXq D.S.getLambda2 (D.E2ᵀ *ᵥ u) j k) = D.form2 u (D.x j) := by
  have := (C19_getters_agree ns ps q types D.S (seq h.built) j _ (h.getElem hj)).2.2.1
  funext k
  unfold form2
  rw [x_eq h, fromV3_toV3]
  exact evaluateAtXq_eq_discrete D.E2 u fun i hi => this i hi k k.2

theorem eval3 (u : Fin D.m3 → ℝ) {j : Nat} (hj : j < D.nq) :
    (fun k : Fin 1 => evaluateAtXq D.S.getLambda3 (D.E3ᵀ *ᵥ u) j k) = D.form3 u (D.x j) := by
  have := (C19_getters_agree ns ps q types D.S (seq h.built) j _ (h.getElem hj)).2.2.2
  funext k
  have hk : (k : Nat) = 0 := by omega
  unfold form3
  rw [x_eq h, fromV3_toV3, hk]
  exact evaluateAtXq_eq_discrete D.E3 u this

/-- The metric tables at quadrature point `j`. -/
theorem metricAt {j : Nat} (hj : j < D.nq) : D.g.J j = (jacfwd F (D.x j)).det ∧ D.g.G j = (jacfwd F (D.x j))ᵀ * jacfwd F (D.x j) ∧
    inv33 (jacfwd F (D.x j)) = (jacfwd F (D.x j))⁻¹ ∧ (jacfwd F (D.x j)) * (jacfwd F (D.x j))⁻¹ = 1 ∧
    (jacfwd F (D.x j))⁻¹ * (jacfwd F (D.x j)) = 1 ∧ D.g.Ginv j = (jacfwd F (D.x j))⁻¹ * ((jacfwd F (D.x j))⁻¹)ᵀ ∧
    0 < (jacfwd F (D.x j)).det := by
  obtain ⟨hg, hF⟩ := metric h.built
  obtain ⟨a, b⟩ := h.pointAt hj
  have hJ := h.regular _ b
  have hpos : 0 < (jacfwd F (D.x j)).det := lt_of_lt_of_le (by norm_num) hJ
  have e : (D.S.Q.x.map toV3).getD j 0 = D.x j := by
    rw [List.getD_eq_getElem?_getD, a]; rfl
  have hu : IsUnit (jacfwd F (D.x j)).det := (isUnit_iff_ne_zero.mpr hpos.ne')
  have hi := (inv33_regular (m := jacfwd F (D.x j)) (by
    rw [abs_of_pos hpos]; exact not_lt.mpr (le_trans (by norm_num) hJ))).1
  refine ⟨?_, ?_, hi, mul_nonsing_inv _ hu, nonsing_inv_mul _ hu, ?_, hpos⟩
  · rw [hg]; simp only [Metric.ofMap, e]; rfl
  · rw [hg]; simp only [Metric.ofMap, e]
  · have := C25_inverse_metric F (D.S.Q.x.map toV3) j _ a (by
      rw [abs_of_nonneg (le_trans (by norm_num) hJ)]; exact hJ)
    have h2 := this.2.1
    rw [← hg] at h2
    rw [← inv_eq_left_inv h2, hg]
    simp only [Metric.ofMap, e]
    rw [Matrix.mul_inv_rev, transpose_nonsing_inv]

theorem phys1_eq (u : Fin D.m1 → ℝ) {j : Nat} (hj : j < D.nq) :
    D.phys1 u (D.x j) = ((jacfwd F (D.x j))⁻¹)ᵀ *ᵥ D.form1 u (D.x j) := by
  obtain ⟨_, hF⟩ := metric h.built
  obtain ⟨_, _, e, _⟩ := h.metricAt hj
  unfold phys1 Pushforward.vector
  rw [hF, e]; simp

theorem phys2_eq (u : Fin D.m2 → ℝ) {j : Nat} (hj : j < D.nq) :
    D.phys2 u (D.x j) = (1 / (jacfwd F (D.x j)).det) • (jacfwd F (D.x j) *ᵥ D.form2 u (D.x j)) := by
  obtain ⟨_, hF⟩ := metric h.built
  unfold phys2 Pushforward.vector
  rw [hF]
  funext c
  simp [div_eq_inv_mul]

theorem phys0_eq (u : Fin D.m0 → ℝ) (y : V3) : D.phys0 u y = D.form0 u y := by
  unfold phys0 Pushforward.scalar; simp

theorem phys3_eq (u : Fin D.m3 → ℝ) {j : Nat} (hj : j < D.nq) :
    D.phys3 u (D.x j) = (1 / (jacfwd F (D.x j)).det) • (D.form3 u (D.x j)) := by
  obtain ⟨_, hF⟩ := metric h.built
  unfold phys3 Pushforward.scalar
  rw [hF]
  funext c
  simp [div_eq_inv_mul]

theorem l2_eq {d : Nat} (f g : V3 → Fin d → ℝ) : l2Product f g D.S.Q F = ∑ j ∈ range D.nq,
    (f (D.x j) ⬝ᵥ g (D.x j)) * ((jacfwd F (D.x j)).det * D.w j) := by
  unfold l2Product
  refine Finset.sum_congr rfl fun j _ => ?_
  unfold dotProduct
  rw [Finset.sum_mul]
  exact Finset.sum_congr rfl fun k _ => by
    simp only [jacobianDeterminant, DeRham.x, DeRham.w]; ring

omit h in
theorem mass_dot {m n d nq : Nat} (g : Getter) (W : Nat → Matrix (Fin d) (Fin d) ℝ) (E : Matrix (Fin m) (Fin n) ℝ) (u v : Fin m → ℝ) :
    u ⬝ᵥ (E * assemble g g nq d W n n * Eᵀ) *ᵥ v = ∑ j ∈ range nq, (fun k : Fin d => evaluateAtXq g (Eᵀ *ᵥ u) j k) ⬝ᵥ
      W j *ᵥ (fun k : Fin d => evaluateAtXq g (Eᵀ *ᵥ v) j k) := by
  rw [← assemble_dot, ← mulVec_mulVec, ← mulVec_mulVec, transpose_dot]

omit h in
theorem scale_form {d : Nat} (A : Matrix (Fin d) (Fin d) ℝ) (a : ℝ) (x y : Fin d → ℝ) :
    x ⬝ᵥ (fun k l => A k l * a : Matrix (Fin d) (Fin d) ℝ) *ᵥ y = (x ⬝ᵥ A *ᵥ y) * a := by
  have : (fun k l => A k l * a : Matrix (Fin d) (Fin d) ℝ) = a • A := by ext k l; simp [mul_comm]
  rw [this, smul_mulVec, dotProduct_smul, smul_eq_mul, mul_comm]

omit h in
theorem scale_one (a : ℝ) (x y : Fin 1 → ℝ) : x ⬝ᵥ (fun _ _ => a : Matrix (Fin 1) (Fin 1) ℝ) *ᵥ y = (x ⬝ᵥ y) * a := by
  simp [dotProduct, mulVec]; ring

theorem M0_l2 (u v : Fin D.m0 → ℝ) : u ⬝ᵥ D.M0 *ᵥ v = l2Product (D.phys0 u) (D.phys0 v) D.S.Q F := by
  rw [l2_eq h]
  unfold DeRham.M0
  rw [mass_dot]
  refine Finset.sum_congr rfl fun j hj => ?_
  have hj := mem_range.mp hj
  rw [h.eval0 u hj, h.eval0 v hj, phys0_eq h, phys0_eq h]
  unfold W0
  rw [scale_one, (h.metricAt hj).1]

theorem M3_l2 (u v : Fin D.m3 → ℝ) : u ⬝ᵥ D.M3 *ᵥ v = l2Product (D.phys3 u) (D.phys3 v) D.S.Q F := by
  rw [l2_eq h]
  unfold DeRham.M3
  rw [mass_dot]
  refine Finset.sum_congr rfl fun j hj => ?_
  have hj := mem_range.mp hj
  obtain ⟨eJ, _, _, _, _, _, hpos⟩ := h.metricAt hj
  rw [h.eval3 u hj, h.eval3 v hj, phys3_eq h u hj, phys3_eq h v hj]
  unfold W3
  rw [scale_one, eJ, smul_dotProduct, dotProduct_smul, smul_eq_mul, smul_eq_mul]
  field_simp

theorem M1_l2 (u v : Fin D.m1 → ℝ) : u ⬝ᵥ D.M1 *ᵥ v = l2Product (D.phys1 u) (D.phys1 v) D.S.Q F := by
  rw [l2_eq h]
  unfold DeRham.M1
  rw [mass_dot]
  refine Finset.sum_congr rfl fun j hj => ?_
  have hj := mem_range.mp hj
  obtain ⟨eJ, _, _, _, _, eI, hpos⟩ := h.metricAt hj
  rw [h.eval1 u hj, h.eval1 v hj, phys1_eq h u hj, phys1_eq h v hj]
  unfold W1
  rw [scale_form, eJ, eI, ← mulVec_mulVec, transpose_dot]

theorem M2_l2 (u v : Fin D.m2 → ℝ) : u ⬝ᵥ D.M2 *ᵥ v = l2Product (D.phys2 u) (D.phys2 v) D.S.Q F := by
  rw [l2_eq h]
  unfold DeRham.M2
  rw [mass_dot]
  refine Finset.sum_congr rfl fun j hj => ?_
  have hj := mem_range.mp hj
  obtain ⟨eJ, eG, _, _, _, eI, hpos⟩ := h.metricAt hj
  rw [h.eval2 u hj, h.eval2 v hj, phys2_eq h u hj, phys2_eq h v hj]
  unfold W2
  rw [scale_form, eJ, eG, ← mulVec_mulVec, transpose_dot, transpose_transpose, smul_dotProduct, dotProduct_smul, smul_eq_mul, smul_eq_mul]
  field_simp

/-! ### Projectors -/

omit h in
theorem integrate_dot (g : Getter) {nq d n m : Nat} (f : Nat → Fin d → ℝ) (E : Matrix (Fin m) (Fin n) ℝ) (a : Fin m → ℝ) :
    a ⬝ᵥ E *ᵥ integrateAgainst g nq d f n = ∑ j ∈ range nq, (fun k : Fin d => evaluateAtXq g (Eᵀ *ᵥ a) j k) ⬝ᵥ f j := by
  rw [transpose_dot]
  simp only [dotProduct, integrateAgainst, evaluateAtXq, Finset.mul_sum, Finset.sum_mul]
  rw [Finset.sum_comm]
  refine Finset.sum_congr rfl fun j _ => ?_
  rw [Finset.sum_comm]
  exact Finset.sum_congr rfl fun k _ => Finset.sum_congr rfl fun i _ => by ring

theorem proj0_l2 (a : Fin D.m0 → ℝ) (f : V3 → Fin 1 → ℝ) : a ⬝ᵥ D.projector0 f = l2Product (D.phys0 a) f D.S.Q F := by
  rw [l2_eq h]
  unfold projector0 zeroformProjection
  rw [integrate_dot]
  refine Finset.sum_congr rfl fun j hj => ?_
  have hj := mem_range.mp hj
  rw [h.eval0 a hj, phys0_eq h, (h.metricAt hj).1]
  simp [dotProduct]; ring

theorem proj3_l2 (a : Fin D.m3 → ℝ) (f : V3 → Fin 1 → ℝ) : a ⬝ᵥ D.projector3 f = l2Product (D.phys3 a) f D.S.Q F := by
  rw [l2_eq h]
  unfold projector3 threeformProjection
  rw [integrate_dot]
  refine Finset.sum_congr rfl fun j hj => ?_
  have hj := mem_range.mp hj
  have hpos := (h.metricAt hj).2.2.2.2.2.2
  rw [h.eval3 a hj, phys3_eq h a hj]
  simp [dotProduct]; field_simp

theorem proj1_l2 (a : Fin D.m1 → ℝ) (f : V3 → V3) : a ⬝ᵥ D.projector1 f = l2Product (D.phys1 a) f D.S.Q F := by
  rw [l2_eq h]
  unfold projector1 oneformProjection
  rw [integrate_dot]
  refine Finset.sum_congr rfl fun j hj => ?_
  have hj := mem_range.mp hj
  obtain ⟨_, hF⟩ := metric h.built
  obtain ⟨eJ, _, e, _⟩ := h.metricAt hj
  rw [h.eval1 a hj, phys1_eq h a hj, hF, e, eJ, ← transpose_dot]
  have : (fun k => ((jacfwd F (D.x j))⁻¹ *ᵥ f (D.x j)) k * (D.w j * (jacfwd F (D.x j)).det)) =
      (D.w j * (jacfwd F (D.x j)).det) • ((jacfwd F (D.x j))⁻¹ *ᵥ f (D.x j)) := by
    funext k; simp [mul_comm]
  rw [this, dotProduct_smul, smul_eq_mul]; ring

theorem proj2_l2 (a : Fin D.m2 → ℝ) (f : V3 → V3) : a ⬝ᵥ D.projector2 f = l2Product (D.phys2 a) f D.S.Q F := by
  rw [l2_eq h]
  unfold projector2 twoformProjection
  rw [integrate_dot]
  refine Finset.sum_congr rfl fun j hj => ?_
  have hj := mem_range.mp hj
  obtain ⟨_, hF⟩ := metric h.built
  obtain ⟨eJ, _, e, _, _, _, hpos⟩ := h.metricAt hj
  rw [h.eval2 a hj, phys2_eq h a hj, hF]
  have : (fun k => ((jacfwd F (D.x j))ᵀ *ᵥ f (D.x j)) k * D.w j) = D.w j • ((jacfwd F (D.x j))ᵀ *ᵥ f (D.x j)) := by
    funext k; simp [mul_comm]
  rw [this, dotProduct_smul, smul_eq_mul, transpose_dot, transpose_transpose, smul_dotProduct, smul_eq_mul]
  field_simp

end Admissible
end Mrx
