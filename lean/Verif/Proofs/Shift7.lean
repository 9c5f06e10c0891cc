import Verif.Proofs.Shift5

/-! # Toroidal shifts of forms and of projections -/

set_option linter.unusedSectionVars false
set_option linter.unusedVariables false

namespace Mrx
open Spec Matrix Quad Props

variable {ns ps : Nat × Nat × Nat} {q : Nat} {types : String × String × String} {F : V3 → V3} {polar dirichlet : Bool} {D : DeRham}

namespace Admissible
variable (h : Admissible ns ps q types F polar dirichlet D) (hp : types.2.2 = "periodic")
include h hp

/-- Every form of the sequence. -/
theorem evaluate_shift (f : Form ℝ) (hf : f = D.S.L0 ∨ f = D.S.L1 ∨ f = D.S.L2 ∨ f = D.S.L3) {m : Nat} (hm : m < ns.2.2) {r t z z' : ℝ}
    (h0 : 0 ≤ z) (h1 : z < 1) (h0' : 0 ≤ z') (h1' : z' < 1) (hx : z' = z + (m : ℝ) / ns.2.2 ∨ z' = z + (m : ℝ) / ns.2.2 - 1) {i : Nat} (hi : i < f.dims.n) {comp : Nat}
    (hc : comp < f.dims.shape.length) : f.evaluate (r, t, z') (shiftIndex ns.2.2 m i) comp = f.evaluate (r, t, z) i comp := by
  obtain ⟨p1, p2, p3, p4, p5⟩ := h.periodicZ hp
  obtain ⟨m0, -⟩ := Seq.mk?_inv (seq h.built)
  obtain ⟨-, -, -, -, s2, -, -, e2⟩ := Form.mk?_inv m0
  rw [hp] at s2
  have hw := h.quad.wf
  have wf : f.WF := by rcases hf with rfl | rfl | rfl | rfl; exacts [hw.f0, hw.f1, hw.f2, hw.f3]
  have hL : f.Λ0 = D.S.L0.Λ0 ∧ f.Λ1 = D.S.L0.Λ1 ∧ f.Λ2 = D.S.L0.Λ2 ∧ f.dΛ0 = D.S.L0.dΛ0 ∧ f.dΛ1 = D.S.L0.dΛ1 ∧ f.dΛ2 = D.S.L0.dΛ2 := by
    rcases hf with rfl | rfl | rfl | rfl
    · exact ⟨rfl, rfl, rfl, rfl, rfl, rfl⟩
    · rw [hw.e1]; exact ⟨rfl, rfl, rfl, rfl, rfl, rfl⟩
    · rw [hw.e2]; exact ⟨rfl, rfl, rfl, rfl, rfl, rfl⟩
    · rw [hw.e3]; exact ⟨rfl, rfl, rfl, rfl, rfl, rfl⟩
  obtain ⟨v1, v2⟩ := h.form_shift hp f.dims (by rcases hf with rfl | rfl | rfl | rfl <;> tauto) (m := m) hi
  have hdvd : ns.2.2 ∣ f.dims.n := by
    obtain ⟨b0, b1, b2, b3⟩ := h.form_dvd hp
    rcases hf with rfl | rfl | rfl | rfl <;> assumption
  obtain ⟨a1, a2⟩ := f.dims.unravelIndex_inRange wf.k hi
  obtain ⟨b1, b2⟩ := f.dims.unravelIndex_inRange wf.k (shiftIndex_lt (m := m) (by omega) hdvd hi)
  rw [v1] at b1 b2
  generalize f.dims.unravelIndex i = u at *
  obtain ⟨c, i1, i2, i3⟩ := u
  simp only [] at *
  rw [← b2, ← a2, Form.evaluate_ravel f wf b1 _ comp hc, Form.evaluate_ravel f wf a1 _ comp hc]
  have fz : ∀ d, factor f d 2 z' ((i3 + m) % ns.2.2) = factor f d 2 z i3 := by
    intro d
    unfold factor
    rw [hL.2.2.1, hL.2.2.2.2.2]
    cases d
    · simpa using periodic_eval_shift p3 p2 p4 hm s2 h0 h1 h0' h1' hx v2
    · simpa using periodic_deriv_shift p3 p1 p2 p4 hm s2 e2 h0 h1 h0' h1' hx v2
  unfold basisValue
  simp only [fz]

theorem discrete_shift {M : Nat} (f : Form ℝ) (hf : f = D.S.L0 ∨ f = D.S.L1 ∨ f = D.S.L2 ∨ f = D.S.L3) {m : Nat} (hm : m < ns.2.2) (hM : ns.2.2 ∣ M) (E : Matrix (Fin M) (Fin f.dims.n) ℝ)
    (hE : ∀ (r : Fin M) (c : Fin f.dims.n) (hr hc), E ⟨shiftIndex ns.2.2 m r, hr⟩ ⟨shiftIndex ns.2.2 m c, hc⟩ = E r c) (u : Fin M → ℝ) {r t z z' : ℝ}
    (h0 : 0 ≤ z) (h1 : z < 1) (h0' : 0 ≤ z') (h1' : z' < 1) (hx : z' = z + (m : ℝ) / ns.2.2 ∨ z' = z + (m : ℝ) / ns.2.2 - 1) {comp : Nat}
    (hc : comp < f.dims.shape.length) : discreteFunction f u E (r, t, z') comp = discreteFunction f (shiftVec ns.2.2 m u) E (r, t, z) comp := by
  obtain ⟨p1, p2, p3, p4, p5⟩ := h.periodicZ hp
  have hz : 0 < ns.2.2 := by omega
  have hdvd : ns.2.2 ∣ f.dims.n := by
    obtain ⟨b0, b1, b2, b3⟩ := h.form_dvd hp
    rcases hf with rfl | rfl | rfl | rfl <;> assumption
  have inv : Inv (shiftPerm ns.2.2 m _ hz hM) (shiftPerm ns.2.2 m _ hz hdvd) E := by
    unfold Inv
    ext a b
    exact hE a b _ _
  unfold discreteFunction
  rw [← comp_shiftPerm hz hM u, ← mulVec_transpose, ← mulVec_transpose, inv.tr.mulVec]
  have : (fun i : Fin f.dims.n => f.evaluate (r, t, z) i comp) = (fun i : Fin f.dims.n => f.evaluate (r, t, z') i comp) ∘ shiftPerm ns.2.2 m _ hz hdvd := by
    funext i
    exact (h.evaluate_shift hp f hf hm h0 h1 h0' h1' hx i.2 hc).symm
  rw [this, comp_equiv_dotProduct_comp_equiv]

/-- The logical fields: moving the coefficients moves the field. -/
theorem forms_shift {m : Nat} (hm : m < ns.2.2) {y y' : V3} (e0 : y' 0 = y 0) (e1 : y' 1 = y 1) (h0 : 0 ≤ y 2) (h1 : y 2 < 1) (h0' : 0 ≤ y' 2) (h1' : y' 2 < 1)
    (hx : y' 2 = y 2 + (m : ℝ) / ns.2.2 ∨ y' 2 = y 2 + (m : ℝ) / ns.2.2 - 1) :
    (∀ u, D.form0 u y' = D.form0 (shiftVec ns.2.2 m u) y) ∧ (∀ u, D.form1 u y' = D.form1 (shiftVec ns.2.2 m u) y) ∧
    (∀ u, D.form2 u y' = D.form2 (shiftVec ns.2.2 m u) y) ∧ (∀ u, D.form3 u y' = D.form3 (shiftVec ns.2.2 m u) y) := by
  obtain ⟨x0, x1, x2, x3⟩ := h.extract_shift hp (m := m)
  obtain ⟨a0, a1, a2, a3⟩ := h.extract_dvd hp
  obtain ⟨k0, k1, k2, k3⟩ := h.degrees
  have l0 : D.S.L0.dims.shape.length = 1 := by simp [Dims.shape, k0]
  have l1 : D.S.L1.dims.shape.length = 3 := by simp [Dims.shape, k1]
  have l2 : D.S.L2.dims.shape.length = 3 := by simp [Dims.shape, k2]
  have l3 : D.S.L3.dims.shape.length = 1 := by simp [Dims.shape, k3]
  have ey : DeRham.fromV3 y' = (y 0, y 1, y' 2) := by unfold DeRham.fromV3; rw [e0, e1]
  have ey' : DeRham.fromV3 y = (y 0, y 1, y 2) := rfl
  refine ⟨fun u => ?_, fun u => ?_, fun u => ?_, fun u => ?_⟩ <;> funext k
  · unfold DeRham.form0
    rw [ey, ey']
    exact h.discrete_shift hp D.S.L0 (by tauto) hm a0 D.E0 x0 u h0 h1 h0' h1' hx (by rw [l0]; exact k.2)
  · unfold DeRham.form1
    rw [ey, ey']
    exact h.discrete_shift hp D.S.L1 (by tauto) hm a1 D.E1 x1 u h0 h1 h0' h1' hx (by rw [l1]; exact k.2)
  · unfold DeRham.form2
    rw [ey, ey']
    exact h.discrete_shift hp D.S.L2 (by tauto) hm a2 D.E2 x2 u h0 h1 h0' h1' hx (by rw [l2]; exact k.2)
  · unfold DeRham.form3
    rw [ey, ey']
    exact h.discrete_shift hp D.S.L3 (by tauto) hm a3 D.E3 x3 u h0 h1 h0' h1' hx (by rw [l3]; exact k.2)

end Admissible

/-! ## Rotations and the explicit inverse -/

theorem inv33_rotation {Q : M33} (hQ : IsRotation Q) (A : M33) : inv33 (Q * A) = inv33 A * Qᵀ := by
  have det : ∀ m : M33, inv33Det m = m.det := fun m => by rw [det_fin_three]; unfold inv33Det; ring
  have adj : ∀ m : M33, (!![m 1 1 * m 2 2 - m 1 2 * m 2 1, m 0 2 * m 2 1 - m 0 1 * m 2 2, m 0 1 * m 1 2 - m 0 2 * m 1 1;
                     m 1 2 * m 2 0 - m 1 0 * m 2 2, m 0 0 * m 2 2 - m 0 2 * m 2 0, m 0 2 * m 1 0 - m 0 0 * m 1 2;
                     m 1 0 * m 2 1 - m 1 1 * m 2 0, m 0 1 * m 2 0 - m 0 0 * m 2 1, m 0 0 * m 1 1 - m 0 1 * m 1 0] : M33) = m.adjugate := fun m => by
    rw [adjugate_fin_three]
    ext i j
    fin_cases i <;> fin_cases j <;> simp <;> ring
  have aQ : Q.adjugate = Qᵀ := by
    have : Q.adjugate * Q = 1 := by rw [adjugate_mul, hQ.det, one_smul]
    calc Q.adjugate = Q.adjugate * (Q * Qᵀ) := by rw [mul_eq_one_comm.1 hQ.orth, Matrix.mul_one]
      _ = Qᵀ := by rw [← Matrix.mul_assoc, this, Matrix.one_mul]
  unfold inv33
  rw [adj, adj, det, det, det_mul, hQ.det, one_mul, adjugate_mul_distrib, aQ]
  split
  · rw [Matrix.zero_mul]
  · ext i j
    simp only [Matrix.of_apply, Matrix.mul_apply, Finset.sum_div]
    refine Finset.sum_congr rfl fun k _ => ?_
    ring

namespace Admissible
variable (h : Admissible ns ps q types F polar dirichlet D) (hp : types.2.2 = "periodic")
include h hp

variable {m : Nat} (hm : m < ns.2.2) {R R0 : M33} (hs : IsSymmetric F ((m : ℝ) / (ns.2.2 : ℝ)) R) (h0 : IsSymmetric F 1 R0)
include hm hs h0

/-- At the quadrature points a symmetric field is rotated like the map. -/
theorem field_shift {v : V3 → V3} (hv : IsSymmetricField v ((m : ℝ) / (ns.2.2 : ℝ)) R) (hv0 : IsSymmetricField v 1 R0) {j : Nat} (hj : j < D.nq) :
    ∃ Q : M33, IsRotation Q ∧ jacfwd F (D.x (shiftIndex (ns.2.2 * q) (m * q) j)) = Q * jacfwd F (D.x j) ∧ v (D.x (shiftIndex (ns.2.2 * q) (m * q) j)) = Q *ᵥ v (D.x j) := by
  rcases h.x_shift hp hm hj with e | e
  · rw [e]; exact ⟨R, hs.1, jacfwd_shift hs _, hv _⟩
  · rw [e]
    refine ⟨R0ᵀ * R, (symmetric_back hs h0).1, jacfwd_shift (symmetric_back hs h0) _, ?_⟩
    generalize D.x j = x
    have e := hv0 ![x 0, x 1, x 2 + ((m : ℝ) / (ns.2.2 : ℝ) - 1)]
    simp only [cons_val_zero, cons_val_one, cons_val_two, Nat.succ_eq_add_one, Nat.reduceAdd, tail_cons, head_cons] at e
    rw [show x 2 + ((m : ℝ) / (ns.2.2 : ℝ) - 1) + 1 = x 2 + (m : ℝ) / (ns.2.2 : ℝ) by ring, hv] at e
    rw [← mulVec_mulVec, e, mulVec_mulVec, h0.1.orth, one_mulVec]

theorem scalar_shift {f : V3 → Fin 1 → ℝ} (hv : IsSymmetricScalar f ((m : ℝ) / (ns.2.2 : ℝ))) (hv0 : IsSymmetricScalar f 1) {j : Nat} (hj : j < D.nq) :
    f (D.x (shiftIndex (ns.2.2 * q) (m * q) j)) = f (D.x j) := by
  rcases h.x_shift hp hm hj with e | e
  · rw [e]; exact hv _
  · rw [e]
    generalize D.x j = x
    have e := hv0 ![x 0, x 1, x 2 + ((m : ℝ) / (ns.2.2 : ℝ) - 1)]
    simp only [cons_val_zero, cons_val_one, cons_val_two, Nat.succ_eq_add_one, Nat.reduceAdd, tail_cons, head_cons] at e
    rw [show x 2 + ((m : ℝ) / (ns.2.2 : ℝ) - 1) + 1 = x 2 + (m : ℝ) / (ns.2.2 : ℝ) by ring, hv] at e
    exact e.symm

variable (hnt : ns.2.2 ≤ ns.2.1)
include hnt

/-- Projections of symmetric fields have symmetric coefficients. -/
theorem projector_shift {v : V3 → V3} (hv : IsSymmetricField v ((m : ℝ) / (ns.2.2 : ℝ)) R) (hv0 : IsSymmetricField v 1 R0) {f : V3 → Fin 1 → ℝ}
    (hf : IsSymmetricScalar f ((m : ℝ) / (ns.2.2 : ℝ))) (hf0 : IsSymmetricScalar f 1) :
    shiftVec ns.2.2 m (D.projector0 f) = D.projector0 f ∧ shiftVec ns.2.2 m (D.projector1 v) = D.projector1 v ∧ shiftVec ns.2.2 m (D.projector2 v) = D.projector2 v ∧
      shiftVec ns.2.2 m (D.projector3 f) = D.projector3 f := by
  obtain ⟨σ, c0, c1, c2, c3, -, -, -, -, ct⟩ := h.sym hp hnt hm hs h0
  obtain ⟨-, hF⟩ := metric h.built
  rw [← c0, ← c1, ← c2, ← c3]
  refine ⟨?_, ?_, ?_, ?_⟩
  · unfold DeRham.projector0
    rw [← σ.E0.mulVec]
    congr 1
    unfold DeRham.zeroformProjection
    refine integrate_inv σ.g0 fun j => ?_
    funext k
    beta_reduce
    rw [σ.w, σ.J, ct, h.scalar_shift hp hm hs h0 hf hf0 j.2]
  · unfold DeRham.projector1
    rw [← σ.E1.mulVec]
    congr 1
    unfold DeRham.oneformProjection
    refine integrate_inv σ.g1 fun j => ?_
    obtain ⟨Q, hQ, e1, e2⟩ := h.field_shift hp hm hs h0 hv hv0 j.2
    funext k
    beta_reduce
    rw [σ.w, σ.J, ct, hF, e1, e2, inv33_rotation hQ, mulVec_mulVec, Matrix.mul_assoc, hQ.orth, Matrix.mul_one]
  · unfold DeRham.projector2
    rw [← σ.E2.mulVec]
    congr 1
    unfold DeRham.twoformProjection
    refine integrate_inv σ.g2 fun j => ?_
    obtain ⟨Q, hQ, e1, e2⟩ := h.field_shift hp hm hs h0 hv hv0 j.2
    funext k
    beta_reduce
    rw [σ.w, ct, hF, e1, e2, transpose_mul, mulVec_mulVec, Matrix.mul_assoc, hQ.orth, Matrix.mul_one]
  · unfold DeRham.projector3
    rw [← σ.E3.mulVec]
    congr 1
    unfold DeRham.threeformProjection
    refine integrate_inv σ.g3 fun j => ?_
    funext k
    beta_reduce
    rw [σ.w, ct, h.scalar_shift hp hm hs h0 hf hf0 j.2]

end Admissible
end Mrx
