import Verif.Proofs.Regular

/-! # Admissible `DeRhamSequence`s -/

set_option linter.unusedSectionVars false

namespace Mrx
open Finset Jax Spec Matrix Quad Props

/-- A `DeRhamSequence` built with admissible parameters and a map that is regular (Jacobian determinant at
least `1e-5`) at the quadrature points. -/
structure Admissible (ns ps : Nat × Nat × Nat) (q : Nat) (types : String × String × String) (F : V3 → V3)
    (polar dirichlet : Bool) (D : DeRham) : Prop where
  built : DeRham.mk? ns ps q types F polar dirichlet = .ok D
  q10 : q ≤ 10
  r : DirOK ns.1 ps.1 q types.1
  t : DirOK ns.2.1 ps.2.1 q types.2.1
  z : DirOK ns.2.2 ps.2.2 q types.2.2
  polar : polar = true → types.1 = "clamped" ∧ types.2.1 = "periodic" ∧ types.2.2 ≠ "clamped" ∧ 3 ≤ ns.1 ∧ 3 ≤ ns.2.1
  regular : ∀ x ∈ D.S.Q.x, 1e-5 ≤ jacobianDeterminant F (toV3 x)

namespace Admissible
variable {ns ps : Nat × Nat × Nat} {q : Nat} {types : String × String × String} {F : V3 → V3} {polar dirichlet : Bool}
  {D : DeRham}

theorem cases' (hb : DeRham.mk? ns ps q types F polar dirichlet = .ok D) :
    ∃ S : Seq ℝ, Seq.mk? ns ps q types = .ok S ∧
      ((polar = true ∧ D = DeRham.ofPolar S F ns.2.1 dirichlet) ∨ (polar = false ∧ D = DeRham.ofBoundary S F dirichlet)) := by
  unfold DeRham.mk? at hb
  split at hb
  · cases hb
  · rename_i S hS
    refine ⟨S, hS, ?_⟩
    have := Except.ok.inj hb
    cases polar
    · exact Or.inr ⟨rfl, by simpa using this.symm⟩
    · exact Or.inl ⟨rfl, by simpa using this.symm⟩

theorem metric (hb : DeRham.mk? ns ps q types F polar dirichlet = .ok D) :
    D.g = Metric.ofMap F (D.S.Q.x.map toV3) ∧ D.F = F := by
  obtain ⟨S, hS, ⟨_, rfl⟩ | ⟨_, rfl⟩⟩ := cases' hb <;> exact ⟨rfl, rfl⟩

theorem seq (hb : DeRham.mk? ns ps q types F polar dirichlet = .ok D) : Seq.mk? ns ps q types = .ok D.S := by
  obtain ⟨S, hS, ⟨_, rfl⟩ | ⟨_, rfl⟩⟩ := cases' hb <;> exact hS

theorem boundary_inj (B : BoundaryOp) (hk : B.Λ.k = 0 ∨ B.Λ.k = 1 ∨ B.Λ.k = 2 ∨ B.Λ.k = 3) (x : Fin B.rowDims.n → ℝ)
    (h : B.matrixᵀ *ᵥ x = 0) : x = 0 := by
  have e := C26_orthonormal_rows B hk
  have : B.matrix *ᵥ (B.matrixᵀ *ᵥ x) = x := by rw [mulVec_mulVec, e, one_mulVec]
  rw [← this, h, mulVec_zero]

theorem polar_inj {k : Int} {tz : String} {f : Form ℝ} (h : PolarSetting k ns ps tz f) (hnt : 3 ≤ ns.2.1)
    (x : Fin (PolarOp.mk f.dims (getXi ns.2.1) dirichlet).n → ℝ)
    (hx : (PolarOp.mk f.dims (getXi ns.2.1) dirichlet).matrixᵀ *ᵥ x = 0) : x = 0 := by
  have := C29_rows_independent k ns ps tz f h hnt dirichlet
  rw [← Matrix.vecMul_injective_iff] at this
  apply this
  beta_reduce
  rw [← mulVec_transpose, hx]; simp

variable (h : Admissible ns ps q types F polar dirichlet D)
include h

theorem quad : D.S.QuadOK := by
  obtain ⟨a, b, c⟩ := types
  exact quadOK (seq h.built) h.q10 h.r h.t h.z

/-- Degrees. -/
theorem degrees : D.S.L0.dims.k = 0 ∧ D.S.L1.dims.k = 1 ∧ D.S.L2.dims.k = 2 ∧ D.S.L3.dims.k = 3 := by
  have hw := h.quad.wf
  exact ⟨hw.k0, by rw [hw.e1], by rw [hw.e2], by rw [hw.e3]⟩

theorem polarSettings (hp : polar = true) : PolarSetting 0 ns ps types.2.2 D.S.L0 ∧ PolarSetting 1 ns ps types.2.2 D.S.L1 ∧
    PolarSetting 2 ns ps types.2.2 D.S.L2 ∧ PolarSetting 3 ns ps types.2.2 D.S.L3 := by
  obtain ⟨m0, m1, m2, m3, _⟩ := Seq.mk?_inv (seq h.built)
  obtain ⟨a, b, c, d, e⟩ := h.polar hp
  obtain ⟨t1, t2, t3⟩ := types
  simp only [] at a b c
  subst a b
  exact ⟨⟨m0, d, Or.inl rfl⟩, ⟨m1, d, Or.inr (Or.inl rfl)⟩, ⟨m2, d, Or.inr (Or.inr (Or.inr c))⟩, ⟨m3, d, Or.inr (Or.inr (Or.inr c))⟩⟩

theorem inj : (∀ x, D.E0ᵀ *ᵥ x = 0 → x = 0) ∧ (∀ x, D.E1ᵀ *ᵥ x = 0 → x = 0) ∧ (∀ x, D.E2ᵀ *ᵥ x = 0 → x = 0) ∧
    ∀ x, D.E3ᵀ *ᵥ x = 0 → x = 0 := by
  obtain ⟨k0, k1, k2, k3⟩ := h.degrees
  have hps := h.polarSettings
  have hpol := h.polar
  obtain ⟨S, hS, ⟨hp, rfl⟩ | ⟨hp, rfl⟩⟩ := cases' h.built
  · obtain ⟨p0, p1, p2, p3⟩ := hps hp
    obtain ⟨_, _, _, _, e⟩ := hpol hp
    exact ⟨fun x => polar_inj p0 e x, fun x => polar_inj p1 e x, fun x => polar_inj p2 e x, fun x => polar_inj p3 e x⟩
  · exact ⟨boundary_inj (BoundaryOp.mk S.L0.dims _) (by left; exact k0), boundary_inj (BoundaryOp.mk S.L1.dims _) (by right; left; exact k1),
      boundary_inj (BoundaryOp.mk S.L2.dims _) (by right; right; left; exact k2),
      boundary_inj (BoundaryOp.mk S.L3.dims _) (by right; right; right; exact k3)⟩

theorem points_len : D.S.Q.x.length = D.nq := by
  have := (C14_tensor_rule_order (D.S.Q.xx, D.S.Q.xx) (D.S.Q.xy, D.S.Q.xy) (D.S.Q.xz, D.S.Q.xz) rfl rfl rfl).1
  rw [DeRham.nq, h.quad.len, show D.S.Q.x = _ from h.quad.tensor]; exact this

theorem pointAt {j : Nat} (hj : j < D.nq) : (D.S.Q.x.map toV3)[j]? = some (toV3 (D.S.point j)) ∧ D.S.point j ∈ D.S.Q.x := by
  rw [← h.points_len] at hj
  unfold Seq.point
  rw [List.getD_eq_getElem?_getD, List.getElem?_map, List.getElem?_eq_getElem hj]
  exact ⟨rfl, List.getElem_mem _⟩

theorem core : D.RegularCore := by
  obtain ⟨e0, e1, e2, e3⟩ := h.inj
  obtain ⟨hg, hF⟩ := metric h.built
  have hJ : ∀ j < D.nq, 1e-5 ≤ D.g.J j := fun j hj => by
    obtain ⟨a, b⟩ := h.pointAt hj
    rw [hg]
    simp only [Metric.ofMap]
    rw [List.getD_eq_getElem?_getD, a]
    exact h.regular _ b
  have hJ0 : ∀ j < D.nq, 0 < D.g.J j := fun j hj => lt_of_lt_of_le (by norm_num) (hJ j hj)
  have hG : ∀ j < D.nq, SPD (D.g.G j) := fun j hj => by
    have := C25_metric_determinant F (D.S.Q.x.map toV3) j
    rw [← hg] at this
    obtain ⟨a, _, c⟩ := this
    refine ⟨a, fun x hx => ?_⟩
    have := (c (hJ0 j hj).ne').dotProduct_mulVec_pos hx
    simpa using this
  have hI : ∀ j < D.nq, D.g.G j * D.g.Ginv j = 1 ∧ D.g.Ginv j * D.g.G j = 1 := fun j hj => by
    obtain ⟨a, b⟩ := h.pointAt hj
    have := C25_inverse_metric F (D.S.Q.x.map toV3) j _ a (by
      rw [abs_of_nonneg (le_trans (by norm_num) (h.regular _ b))]; exact h.regular _ b)
    rw [← hg] at this
    exact ⟨this.1, this.2.1⟩
  refine ⟨h.quad, e0, e1, e2, e3, hJ0, hG, fun j hj => ?_, fun j hj => (hI j hj).1⟩
  have : D.g.Ginv j = (D.g.G j)⁻¹ := (inv_eq_left_inv (hI j hj).2).symm
  rw [this]
  exact (hG j hj).inv

end Admissible
end Mrx
