import Verif.Proofs.Shift3
import Verif.Proofs.Shift4

/-! # The toroidal shift of an admissible sequence -/

set_option linter.unusedSectionVars false
set_option linter.unusedVariables false

namespace Mrx
open Spec Matrix Quad Props

/-- The shift as a permutation. -/
noncomputable def shiftPerm (nz m N : Nat) (hz : 0 < nz) (hN : nz ∣ N) : Equiv.Perm (Fin N) :=
  Equiv.ofBijective (fun i : Fin N => ⟨shiftIndex nz m i, shiftIndex_lt hz hN i.2⟩)
    (Finite.injective_iff_bijective.1 fun a b e => Fin.ext ((shiftIndex_inj hz).1 (Fin.mk.inj e)))

theorem shiftPerm_val {nz m N : Nat} (hz : 0 < nz) (hN : nz ∣ N) (i : Fin N) : (shiftPerm nz m N hz hN i).val = shiftIndex nz m i := rfl

theorem comp_shiftPerm {nz m N : Nat} (hz : 0 < nz) (hN : nz ∣ N) (v : Fin N → ℝ) : v ∘ shiftPerm nz m N hz hN = shiftVec nz m v := by
  funext i
  unfold shiftVec
  rw [dif_pos (shiftIndex_lt hz hN i.2)]
  rfl

variable {ns ps : Nat × Nat × Nat} {q : Nat} {types : String × String × String} {F : V3 → V3} {polar dirichlet : Bool} {D : DeRham}

namespace Admissible
variable (h : Admissible ns ps q types F polar dirichlet D) (hp : types.2.2 = "periodic") (hnt : ns.2.2 ≤ ns.2.1)
include h hp

theorem dims_k : D.S.L1.dims = { D.S.L0.dims with k := 1 } ∧ D.S.L2.dims = { D.S.L0.dims with k := 2 } ∧ D.S.L3.dims = { D.S.L0.dims with k := 3 } := by
  obtain ⟨-, -, e1, e2, e3⟩ := h.quad.wf
  rw [e1, e2, e3]
  exact ⟨rfl, rfl, rfl⟩

/-- What a shift does to the indices of a form. -/
theorem form_shift (d : Dims) (hd : d = D.S.L0.dims ∨ d = D.S.L1.dims ∨ d = D.S.L2.dims ∨ d = D.S.L3.dims) {m i : Nat} (hi : i < d.n) :
    d.unravelIndex (shiftIndex ns.2.2 m i) = ((d.unravelIndex i).1, (d.unravelIndex i).2.1, (d.unravelIndex i).2.2.1, ((d.unravelIndex i).2.2.2 + m) % ns.2.2) ∧
      (d.unravelIndex i).2.2.2 < ns.2.2 := by
  obtain ⟨d1, d2, d3⟩ := h.dimsZ hp
  obtain ⟨e1, e2, e3⟩ := h.dims_k hp
  obtain ⟨p1, p2, p3, p4, p5⟩ := h.periodicZ hp
  have hk : Dims.validDegree d.k ∧ d.nz = ns.2.2 ∧ d.dz = ns.2.2 := by
    obtain ⟨k0, k1, k2, k3⟩ := h.degrees
    unfold Dims.validDegree
    rcases hd with rfl | rfl | rfl | rfl
    · exact ⟨by omega, d1, d2⟩
    · exact ⟨by omega, by rw [e1]; exact d1, by rw [e1]; exact d2⟩
    · exact ⟨by omega, by rw [e2]; exact d1, by rw [e2]; exact d2⟩
    · exact ⟨by omega, by rw [e3]; exact d1, by rw [e3]; exact d2⟩
  obtain ⟨a, b, -⟩ := d.unravelIndex_shift (m := m) (by omega : 0 < ns.2.2) hk.1 hk.2.1 hk.2.2 hi
  exact ⟨a, b⟩

theorem form_dvd : ns.2.2 ∣ D.S.L0.dims.n ∧ ns.2.2 ∣ D.S.L1.dims.n ∧ ns.2.2 ∣ D.S.L2.dims.n ∧ ns.2.2 ∣ D.S.L3.dims.n := by
  obtain ⟨d1, d2, d3⟩ := h.dimsZ hp
  obtain ⟨e1, e2, e3⟩ := h.dims_k hp
  obtain ⟨k0, k1, k2, k3⟩ := h.degrees
  have n : ∀ d : Dims, (d.k = 0 ∨ d.k = 1 ∨ d.k = 2 ∨ d.k = 3) → d.nz = ns.2.2 → d.dz = ns.2.2 → ns.2.2 ∣ d.n := by
    intro d hk a b
    have m : ∀ x, ns.2.2 ∣ x * ns.2.2 := fun x => Dvd.intro_left _ rfl
    unfold Dims.n Dims.n1 Dims.n2 Dims.n3
    rcases hk with hk | hk | hk | hk <;> simp only [hk, a, b] <;> simp <;> exact ((m _).add (m _)).add (m _)
  exact ⟨n _ (by omega) d1 d2, n _ (by omega) (by rw [e1]; exact d1) (by rw [e1]; exact d2), n _ (by omega) (by rw [e2]; exact d1) (by rw [e2]; exact d2),
    n _ (by omega) (by rw [e3]; exact d1) (by rw [e3]; exact d2)⟩

section getters
variable {m : Nat} (hm : m < ns.2.2) {i j : Nat} (hj : j < D.nq) (k : Nat)
include hm hj

theorem getLambda0_shift (hi : i < D.S.L0.dims.n) : D.S.getLambda0 (shiftIndex ns.2.2 m i) (shiftIndex (ns.2.2 * q) (m * q) j) k = D.S.getLambda0 i j k := by
  obtain ⟨u1, u2⟩ := h.unravelQuad_shift hp (m := m) hj
  obtain ⟨v1, v2⟩ := h.form_shift hp D.S.L0.dims (by tauto) (m := m) hi
  unfold Seq.getLambda0
  simp only [u1, v1, h.lamZ_shift hp hm v2 u2]

theorem getLambda1_shift (hi : i < D.S.L1.dims.n) : D.S.getLambda1 (shiftIndex ns.2.2 m i) (shiftIndex (ns.2.2 * q) (m * q) j) k = D.S.getLambda1 i j k := by
  obtain ⟨u1, u2⟩ := h.unravelQuad_shift hp (m := m) hj
  obtain ⟨v1, v2⟩ := h.form_shift hp D.S.L1.dims (by tauto) (m := m) hi
  unfold Seq.getLambda1
  simp only [u1, v1, h.lamZ_shift hp hm v2 u2, h.dlamZ_shift hp hm v2 u2]

theorem getLambda2_shift (hi : i < D.S.L2.dims.n) : D.S.getLambda2 (shiftIndex ns.2.2 m i) (shiftIndex (ns.2.2 * q) (m * q) j) k = D.S.getLambda2 i j k := by
  obtain ⟨u1, u2⟩ := h.unravelQuad_shift hp (m := m) hj
  obtain ⟨v1, v2⟩ := h.form_shift hp D.S.L2.dims (by tauto) (m := m) hi
  unfold Seq.getLambda2
  simp only [u1, v1, h.lamZ_shift hp hm v2 u2, h.dlamZ_shift hp hm v2 u2]

theorem getLambda3_shift (hi : i < D.S.L3.dims.n) : D.S.getLambda3 (shiftIndex ns.2.2 m i) (shiftIndex (ns.2.2 * q) (m * q) j) k = D.S.getLambda3 i j k := by
  obtain ⟨u1, u2⟩ := h.unravelQuad_shift hp (m := m) hj
  obtain ⟨v1, v2⟩ := h.form_shift hp D.S.L3.dims (by tauto) (m := m) hi
  unfold Seq.getLambda3
  simp only [u1, v1, h.dlamZ_shift hp hm v2 u2]

include hnt

theorem getDLambda0_shift (hi : i < D.S.L0.dims.n) : D.S.getDLambda0 (shiftIndex ns.2.2 m i) (shiftIndex (ns.2.2 * q) (m * q) j) k = D.S.getDLambda0 i j k := by
  obtain ⟨u1, u2⟩ := h.unravelQuad_shift hp (m := m) hj
  obtain ⟨v1, v2⟩ := h.form_shift hp D.S.L0.dims (by tauto) (m := m) hi
  have e : D.S.L0.dims.nt = ns.2.1 := (h.dimsZ hp).2.2
  unfold Seq.getDLambda0
  simp only [u1, v1, e, h.lamZ_shift hp hm v2 u2, h.diffZ_shift hp hnt hm v2 u2]

theorem getDLambda1_shift (hi : i < D.S.L1.dims.n) : D.S.getDLambda1 (shiftIndex ns.2.2 m i) (shiftIndex (ns.2.2 * q) (m * q) j) k = D.S.getDLambda1 i j k := by
  obtain ⟨u1, u2⟩ := h.unravelQuad_shift hp (m := m) hj
  obtain ⟨v1, v2⟩ := h.form_shift hp D.S.L1.dims (by tauto) (m := m) hi
  have e : D.S.L1.dims.nt = ns.2.1 := by rw [(h.dims_k hp).1]; exact (h.dimsZ hp).2.2
  unfold Seq.getDLambda1
  simp only [u1, v1, e, h.lamZ_shift hp hm v2 u2, h.dlamZ_shift hp hm v2 u2, h.diffZ_shift hp hnt hm v2 u2]

theorem getDLambda2_shift (hi : i < D.S.L2.dims.n) : D.S.getDLambda2 (shiftIndex ns.2.2 m i) (shiftIndex (ns.2.2 * q) (m * q) j) k = D.S.getDLambda2 i j k := by
  obtain ⟨u1, u2⟩ := h.unravelQuad_shift hp (m := m) hj
  obtain ⟨v1, v2⟩ := h.form_shift hp D.S.L2.dims (by tauto) (m := m) hi
  have e : D.S.L2.dims.nt = ns.2.1 := by rw [(h.dims_k hp).2.1]; exact (h.dimsZ hp).2.2
  unfold Seq.getDLambda2
  simp only [u1, v1, e, h.dlamZ_shift hp hm v2 u2, h.diffZ_shift hp hnt hm v2 u2]

end getters

/-- The extraction matrices. -/
theorem extract_dvd : ns.2.2 ∣ D.m0 ∧ ns.2.2 ∣ D.m1 ∧ ns.2.2 ∣ D.m2 ∧ ns.2.2 ∣ D.m3 := by
  obtain ⟨d1, d2, d3⟩ := h.dimsZ hp
  obtain ⟨e1, e2, e3⟩ := h.dims_k hp
  obtain ⟨k0, k1, k2, k3⟩ := h.degrees
  obtain ⟨p1, p2, p3, p4, p5⟩ := h.periodicZ hp
  have hz : 0 < ns.2.2 := by omega
  have n : ∀ d : Dims, (d.k = 0 ∨ d.k = 1 ∨ d.k = 2 ∨ d.k = 3) → d.nz = ns.2.2 → d.dz = ns.2.2 → ns.2.2 ∣ d.n := by
    intro d hk a b
    have m : ∀ x, ns.2.2 ∣ x * ns.2.2 := fun x => Dvd.intro_left _ rfl
    unfold Dims.n Dims.n1 Dims.n2 Dims.n3
    rcases hk with hk | hk | hk | hk <;> simp only [hk, a, b] <;> simp <;> exact ((m _).add (m _)).add (m _)
  have z1 : D.S.L1.dims.nz = ns.2.2 ∧ D.S.L1.dims.dz = ns.2.2 := by rw [e1]; exact ⟨d1, d2⟩
  have z2 : D.S.L2.dims.nz = ns.2.2 ∧ D.S.L2.dims.dz = ns.2.2 := by rw [e2]; exact ⟨d1, d2⟩
  have z3 : D.S.L3.dims.nz = ns.2.2 ∧ D.S.L3.dims.dz = ns.2.2 := by rw [e3]; exact ⟨d1, d2⟩
  obtain ⟨S, hS, ⟨hpo, rfl⟩ | ⟨hpo, rfl⟩⟩ := cases' h.built
  · exact ⟨(PolarOp.n_dvd hz _ d1 d2).2.2.2, (PolarOp.n_dvd hz _ z1.1 z1.2).2.2.2, (PolarOp.n_dvd hz _ z2.1 z2.2).2.2.2, (PolarOp.n_dvd hz _ z3.1 z3.2).2.2.2⟩
  · have g : ∀ n, getDim n (DeRham.bcTypes dirichlet).2.2 = n := fun n => by cases dirichlet <;> simp [DeRham.bcTypes, getDim]
    exact ⟨n _ (by change S.L0.dims.k = _ ∨ _; exact Or.inl k0) ((g _).trans d1) d2, n _ (by change S.L1.dims.k = _ ∨ S.L1.dims.k = _ ∨ _; exact Or.inr (Or.inl k1)) ((g _).trans z1.1) z1.2,
      n _ (by change S.L2.dims.k = _ ∨ S.L2.dims.k = _ ∨ S.L2.dims.k = _ ∨ _; exact Or.inr (Or.inr (Or.inl k2))) ((g _).trans z2.1) z2.2,
      n _ (by change S.L3.dims.k = _ ∨ S.L3.dims.k = _ ∨ S.L3.dims.k = _ ∨ S.L3.dims.k = _; exact Or.inr (Or.inr (Or.inr k3))) ((g _).trans z3.1) z3.2⟩

theorem extract_shift {m : Nat} : (∀ (r : Fin D.m0) (c : Fin D.S.L0.dims.n) (hr hc), D.E0 ⟨shiftIndex ns.2.2 m r, hr⟩ ⟨shiftIndex ns.2.2 m c, hc⟩ = D.E0 r c) ∧
    (∀ (r : Fin D.m1) (c : Fin D.S.L1.dims.n) (hr hc), D.E1 ⟨shiftIndex ns.2.2 m r, hr⟩ ⟨shiftIndex ns.2.2 m c, hc⟩ = D.E1 r c) ∧
    (∀ (r : Fin D.m2) (c : Fin D.S.L2.dims.n) (hr hc), D.E2 ⟨shiftIndex ns.2.2 m r, hr⟩ ⟨shiftIndex ns.2.2 m c, hc⟩ = D.E2 r c) ∧
    (∀ (r : Fin D.m3) (c : Fin D.S.L3.dims.n) (hr hc), D.E3 ⟨shiftIndex ns.2.2 m r, hr⟩ ⟨shiftIndex ns.2.2 m c, hc⟩ = D.E3 r c) := by
  obtain ⟨d1, d2, d3⟩ := h.dimsZ hp
  obtain ⟨e1, e2, e3⟩ := h.dims_k hp
  obtain ⟨k0, k1, k2, k3⟩ := h.degrees
  obtain ⟨p1, p2, p3, p4, p5⟩ := h.periodicZ hp
  have hd := h.dims0
  have hz : 0 < ns.2.2 := by omega
  have z1 : D.S.L1.dims.nz = ns.2.2 ∧ D.S.L1.dims.dz = ns.2.2 := by rw [e1]; exact ⟨d1, d2⟩
  have z2 : D.S.L2.dims.nz = ns.2.2 ∧ D.S.L2.dims.dz = ns.2.2 := by rw [e2]; exact ⟨d1, d2⟩
  have z3 : D.S.L3.dims.nz = ns.2.2 ∧ D.S.L3.dims.dz = ns.2.2 := by rw [e3]; exact ⟨d1, d2⟩
  have hpol := h.polar
  obtain ⟨S, hS, ⟨hpo, rfl⟩ | ⟨hpo, rfl⟩⟩ := cases' h.built
  · obtain ⟨t1, t2, -, r3, -⟩ := hpol hpo
    have c0 : 3 ≤ S.L0.dims.nr ∧ S.L0.dims.dr ≤ S.L0.dims.nr ∧ S.L0.dims.dt = S.L0.dims.nt := by
      change S.L0.dims = _ at hd
      rw [hd, t1, t2]
      refine ⟨r3, ?_, ?_⟩ <;> simp [Form.dsize]
    have c1 : 3 ≤ S.L1.dims.nr ∧ S.L1.dims.dr ≤ S.L1.dims.nr ∧ S.L1.dims.dt = S.L1.dims.nt := by
      change S.L1.dims = _ at e1; rw [e1]; exact c0
    have c2 : 3 ≤ S.L2.dims.nr ∧ S.L2.dims.dr ≤ S.L2.dims.nr ∧ S.L2.dims.dt = S.L2.dims.nt := by
      change S.L2.dims = _ at e2; rw [e2]; exact c0
    have c3 : 3 ≤ S.L3.dims.nr ∧ S.L3.dims.dr ≤ S.L3.dims.nr ∧ S.L3.dims.dt = S.L3.dims.nt := by
      change S.L3.dims = _ at e3; rw [e3]; exact c0
    exact ⟨fun r c _ _ => PolarOp.element_shift hz _ (Or.inl k0) d1 d2 c0.1 c0.2.1 c0.2.2 r.2 c.2,
      fun r c _ _ => PolarOp.element_shift hz _ (Or.inr (Or.inl k1)) z1.1 z1.2 c1.1 c1.2.1 c1.2.2 r.2 c.2,
      fun r c _ _ => PolarOp.element_shift hz _ (Or.inr (Or.inr (Or.inl k2))) z2.1 z2.2 c2.1 c2.2.1 c2.2.2 r.2 c.2,
      fun r c _ _ => PolarOp.element_shift hz _ (Or.inr (Or.inr (Or.inr k3))) z3.1 z3.2 c3.1 c3.2.1 c3.2.2 r.2 c.2⟩
  · have t : (DeRham.bcTypes dirichlet).2.2 = "none" := by cases dirichlet <;> rfl
    have cast : ∀ {x y : Int}, x = y → (x : ℝ) = (y : ℝ) := fun e => by rw [e]
    exact ⟨fun r c _ _ => cast (BoundaryOp.element_shift hz _ (Or.inl k0) d1 d2 t r.2 c.2),
      fun r c _ _ => cast (BoundaryOp.element_shift hz _ (Or.inr (Or.inl k1)) z1.1 z1.2 t r.2 c.2),
      fun r c _ _ => cast (BoundaryOp.element_shift hz _ (Or.inr (Or.inr (Or.inl k2))) z2.1 z2.2 t r.2 c.2),
      fun r c _ _ => cast (BoundaryOp.element_shift hz _ (Or.inr (Or.inr (Or.inr k3))) z3.1 z3.2 t r.2 c.2)⟩

include hnt

/-- The shift by `m` toroidal cells. -/
theorem sym {m : Nat} (hm : m < ns.2.2) {R R0 : M33} (hs : IsSymmetric F ((m : ℝ) / (ns.2.2 : ℝ)) R) (h0 : IsSymmetric F 1 R0) :
    ∃ σ : D.Sym, (∀ v, v ∘ σ.s0 = shiftVec ns.2.2 m v) ∧ (∀ v, v ∘ σ.s1 = shiftVec ns.2.2 m v) ∧ (∀ v, v ∘ σ.s2 = shiftVec ns.2.2 m v) ∧ (∀ v, v ∘ σ.s3 = shiftVec ns.2.2 m v) ∧
      (∀ i, (σ.s0 i).val = shiftIndex ns.2.2 m i) ∧ (∀ i, (σ.s1 i).val = shiftIndex ns.2.2 m i) ∧ (∀ i, (σ.s2 i).val = shiftIndex ns.2.2 m i) ∧
      (∀ i, (σ.s3 i).val = shiftIndex ns.2.2 m i) ∧ ∀ j, (σ.t j).val = shiftIndex (ns.2.2 * q) (m * q) j := by
  obtain ⟨p1, p2, p3, p4, p5⟩ := h.periodicZ hp
  have hz : 0 < ns.2.2 := by omega
  have hq : 0 < ns.2.2 * q := Nat.mul_pos hz (by omega)
  obtain ⟨a0, a1, a2, a3⟩ := h.extract_dvd hp
  obtain ⟨b0, b1, b2, b3⟩ := h.form_dvd hp
  obtain ⟨x0, x1, x2, x3⟩ := h.extract_shift hp (m := m)
  refine ⟨{ s0 := shiftPerm ns.2.2 m _ hz a0, s1 := shiftPerm ns.2.2 m _ hz a1, s2 := shiftPerm ns.2.2 m _ hz a2, s3 := shiftPerm ns.2.2 m _ hz a3,
            f0 := shiftPerm ns.2.2 m _ hz b0, f1 := shiftPerm ns.2.2 m _ hz b1, f2 := shiftPerm ns.2.2 m _ hz b2, f3 := shiftPerm ns.2.2 m _ hz b3,
            t := shiftPerm (ns.2.2 * q) (m * q) _ hq (h.nq_dvd hp),
            E0 := by ext r c; exact x0 r c _ _
            E1 := by ext r c; exact x1 r c _ _
            E2 := by ext r c; exact x2 r c _ _
            E3 := by ext r c; exact x3 r c _ _
            g0 := fun i j k => h.getLambda0_shift hp hm j.2 k i.2
            g1 := fun i j k => h.getLambda1_shift hp hm j.2 k i.2
            g2 := fun i j k => h.getLambda2_shift hp hm j.2 k i.2
            g3 := fun i j k => h.getLambda3_shift hp hm j.2 k i.2
            dg0 := fun i j k => h.getDLambda0_shift hp hnt hm j.2 k i.2
            dg1 := fun i j k => h.getDLambda1_shift hp hnt hm j.2 k i.2
            dg2 := fun i j k => h.getDLambda2_shift hp hnt hm j.2 k i.2
            w := fun j => h.w_shift hp hm j.2
            J := fun j => (h.metric_shift hp hm hs h0 j.2).1
            G := fun j => (h.metric_shift hp hm hs h0 j.2).2.1
            Ginv := fun j => (h.metric_shift hp hm hs h0 j.2).2.2 }, ?_⟩
  exact ⟨comp_shiftPerm hz a0, comp_shiftPerm hz a1, comp_shiftPerm hz a2, comp_shiftPerm hz a3, fun _ => rfl, fun _ => rfl, fun _ => rfl, fun _ => rfl, fun _ => rfl⟩

end Admissible
end Mrx
