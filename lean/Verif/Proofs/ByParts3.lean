import Verif.Proofs.ByParts2

/-! # Integration by parts for the divergence of a sequence -/

set_option linter.unusedSectionVars false
set_option linter.unusedVariables false

namespace Mrx
open Finset Jax Spec Matrix

namespace Seq
variable {S : Seq ℝ}

/-- A 0-form with coefficients `V` at quadrature indices, and its tabulated partial derivatives. -/
noncomputable def gs (S : Seq ℝ) (V : Nat → Nat → Nat → Nat → ℝ) (p s q : Nat) : ℝ :=
  T3 S.L0.dims.nr S.L0.dims.nt S.L0.dims.nz (V 0) (fun i => S.lamR.get i p) (fun i => S.lamT.get i s) (fun i => S.lamZ.get i q)
noncomputable def gsr (S : Seq ℝ) (V : Nat → Nat → Nat → Nat → ℝ) (p s q : Nat) : ℝ :=
  T3 S.L0.dims.nr S.L0.dims.nt S.L0.dims.nz (V 0) (fun i => S.diffR S.L0.dims.nt i p) (fun i => S.lamT.get i s) (fun i => S.lamZ.get i q)
noncomputable def gst (S : Seq ℝ) (V : Nat → Nat → Nat → Nat → ℝ) (p s q : Nat) : ℝ :=
  T3 S.L0.dims.nr S.L0.dims.nt S.L0.dims.nz (V 0) (fun i => S.lamR.get i p) (fun i => S.diffT S.L0.dims.nt i s) (fun i => S.lamZ.get i q)
noncomputable def gsz (S : Seq ℝ) (V : Nat → Nat → Nat → Nat → ℝ) (p s q : Nat) : ℝ :=
  T3 S.L0.dims.nr S.L0.dims.nt S.L0.dims.nz (V 0) (fun i => S.lamR.get i p) (fun i => S.lamT.get i s) (fun i => S.diffZ S.L0.dims.nt i q)
/-- Components of a 2-form with coefficients `V` at quadrature indices, and the tabulated terms of its divergence. -/
noncomputable def br (S : Seq ℝ) (V : Nat → Nat → Nat → Nat → ℝ) (p s q : Nat) : ℝ :=
  T3 S.L0.dims.nr S.L0.dims.dt S.L0.dims.dz (V 0) (fun i => S.lamR.get i p) (fun i => S.dlamT.get i s) (fun i => S.dlamZ.get i q)
noncomputable def bt (S : Seq ℝ) (V : Nat → Nat → Nat → Nat → ℝ) (p s q : Nat) : ℝ :=
  T3 S.L0.dims.dr S.L0.dims.nt S.L0.dims.dz (V 1) (fun i => S.dlamR.get i p) (fun i => S.lamT.get i s) (fun i => S.dlamZ.get i q)
noncomputable def bz (S : Seq ℝ) (V : Nat → Nat → Nat → Nat → ℝ) (p s q : Nat) : ℝ :=
  T3 S.L0.dims.dr S.L0.dims.dt S.L0.dims.nz (V 2) (fun i => S.dlamR.get i p) (fun i => S.dlamT.get i s) (fun i => S.lamZ.get i q)
noncomputable def brr (S : Seq ℝ) (V : Nat → Nat → Nat → Nat → ℝ) (p s q : Nat) : ℝ :=
  T3 S.L0.dims.nr S.L0.dims.dt S.L0.dims.dz (V 0) (fun i => S.diffR S.L0.dims.nt i p) (fun i => S.dlamT.get i s) (fun i => S.dlamZ.get i q)
noncomputable def btt (S : Seq ℝ) (V : Nat → Nat → Nat → Nat → ℝ) (p s q : Nat) : ℝ :=
  T3 S.L0.dims.dr S.L0.dims.nt S.L0.dims.dz (V 1) (fun i => S.dlamR.get i p) (fun i => S.diffT S.L0.dims.nt i s) (fun i => S.dlamZ.get i q)
noncomputable def bzz (S : Seq ℝ) (V : Nat → Nat → Nat → Nat → ℝ) (p s q : Nat) : ℝ :=
  T3 S.L0.dims.dr S.L0.dims.dt S.L0.dims.nz (V 2) (fun i => S.dlamR.get i p) (fun i => S.dlamT.get i s) (fun i => S.diffZ S.L0.dims.nt i q)

theorem field0_eq (hw : S.WF) (v : Fin S.L0.dims.n → ℝ) (j k : Nat) :
    evaluateAtXq S.getLambda0 v j k = S.gs (coef S.L0.dims v) (S.unravelQuad j).1 (S.unravelQuad j).2.1 (S.unravelQuad j).2.2 :=
  field0 hw v j k

theorem grad0_eq (hw : S.WF) (v : Fin S.L0.dims.n → ℝ) (j : Nat) :
    evaluateAtXq S.getDLambda0 v j 0 = S.gsr (coef S.L0.dims v) (S.unravelQuad j).1 (S.unravelQuad j).2.1 (S.unravelQuad j).2.2 ∧
    evaluateAtXq S.getDLambda0 v j 1 = S.gst (coef S.L0.dims v) (S.unravelQuad j).1 (S.unravelQuad j).2.1 (S.unravelQuad j).2.2 ∧
    evaluateAtXq S.getDLambda0 v j 2 = S.gsz (coef S.L0.dims v) (S.unravelQuad j).1 (S.unravelQuad j).2.1 (S.unravelQuad j).2.2 := by
  have s0 : S.L0.dims.cshape 0 = (S.L0.dims.nr, S.L0.dims.nt, S.L0.dims.nz) := by simp [Dims.cshape, Dims.shape, hw.k0]
  have s1 : S.L0.dims.cshape 1 = (0, 0, 0) := by simp [Dims.cshape, Dims.shape, hw.k0]
  have s2 : S.L0.dims.cshape 2 = (0, 0, 0) := by simp [Dims.cshape, Dims.shape, hw.k0]
  have key : ∀ k, k < 3 → evaluateAtXq S.getDLambda0 v j k = _ := fun k hk => by
    unfold evaluateAtXq
    exact field_vec _ hw.f0.k v (fun a => S.getDLambda0 a j k) (fun c => if c = 0 then 1 else 0)
      (fun _ i => if k = 0 then S.diffR S.L0.dims.nt i (S.unravelQuad j).1 else S.lamR.get i (S.unravelQuad j).1)
      (fun _ i => if k = 1 then S.diffT S.L0.dims.nt i (S.unravelQuad j).2.1 else S.lamT.get i (S.unravelQuad j).2.1)
      (fun _ i => if k = 2 then S.diffZ S.L0.dims.nt i (S.unravelQuad j).2.2 else S.lamZ.get i (S.unravelQuad j).2.2)
      (by
        intro c i1 i2 i3 hc hin
        have hc' := hin.comp_lt
        simp [Dims.shape, hw.k0] at hc'
        subst hc'
        unfold getDLambda0
        rw [Dims.unravelIndex_ravelIndex _ hw.f0.k hin]
        interval_cases k <;> simp)
  refine ⟨?_, ?_, ?_⟩
  · rw [key 0 (by omega), s0]; unfold gsr; simp
  · rw [key 1 (by omega), s0]; unfold gst; simp
  · rw [key 2 (by omega), s0]; unfold gsz; simp

theorem field2_eq (hw : S.WF) (v : Fin S.L2.dims.n → ℝ) (j : Nat) :
    evaluateAtXq S.getLambda2 v j 0 = S.br (coef S.L2.dims v) (S.unravelQuad j).1 (S.unravelQuad j).2.1 (S.unravelQuad j).2.2 ∧
    evaluateAtXq S.getLambda2 v j 1 = S.bt (coef S.L2.dims v) (S.unravelQuad j).1 (S.unravelQuad j).2.1 (S.unravelQuad j).2.2 ∧
    evaluateAtXq S.getLambda2 v j 2 = S.bz (coef S.L2.dims v) (S.unravelQuad j).1 (S.unravelQuad j).2.1 (S.unravelQuad j).2.2 := by
  have hd := (nr_eq hw).2.1
  have s0 : S.L2.dims.cshape 0 = (S.L0.dims.nr, S.L0.dims.dt, S.L0.dims.dz) := by simp [Dims.cshape, Dims.shape, hd]
  have s1 : S.L2.dims.cshape 1 = (S.L0.dims.dr, S.L0.dims.nt, S.L0.dims.dz) := by simp [Dims.cshape, Dims.shape, hd]
  have s2 : S.L2.dims.cshape 2 = (S.L0.dims.dr, S.L0.dims.dt, S.L0.dims.nz) := by simp [Dims.cshape, Dims.shape, hd]
  have hk : S.L2.dims.k = 2 := by rw [hd]
  refine ⟨?_, ?_, ?_⟩
  · rw [field2 hw v j 0 (by omega)]; unfold compVal; rw [s0, hk]; rfl
  · rw [field2 hw v j 1 (by omega)]; unfold compVal; rw [s1, hk]; rfl
  · rw [field2 hw v j 2 (by omega)]; unfold compVal; rw [s2, hk]; rfl

theorem div2_eq (hw : S.WF) (v : Fin S.L2.dims.n → ℝ) (j k : Nat) :
    evaluateAtXq S.getDLambda2 v j k = S.brr (coef S.L2.dims v) (S.unravelQuad j).1 (S.unravelQuad j).2.1 (S.unravelQuad j).2.2
      + S.btt (coef S.L2.dims v) (S.unravelQuad j).1 (S.unravelQuad j).2.1 (S.unravelQuad j).2.2
      + S.bzz (coef S.L2.dims v) (S.unravelQuad j).1 (S.unravelQuad j).2.1 (S.unravelQuad j).2.2 := by
  have hd2 := (nr_eq hw).2.1
  have knt : S.L2.dims.nt = S.L0.dims.nt := by rw [hd2]
  have t0 : S.L2.dims.cshape 0 = (S.L0.dims.nr, S.L0.dims.dt, S.L0.dims.dz) := by simp [Dims.cshape, Dims.shape, hd2]
  have t1 : S.L2.dims.cshape 1 = (S.L0.dims.dr, S.L0.dims.nt, S.L0.dims.dz) := by simp [Dims.cshape, Dims.shape, hd2]
  have t2 : S.L2.dims.cshape 2 = (S.L0.dims.dr, S.L0.dims.dt, S.L0.dims.nz) := by simp [Dims.cshape, Dims.shape, hd2]
  unfold evaluateAtXq
  rw [field_vec _ hw.f2.k v (fun a => S.getDLambda2 a j k) (fun _ => 1)
    (fun c i => if c = 0 then S.diffR S.L0.dims.nt i (S.unravelQuad j).1 else S.dlamR.get i (S.unravelQuad j).1)
    (fun c i => if c = 1 then S.diffT S.L0.dims.nt i (S.unravelQuad j).2.1 else S.dlamT.get i (S.unravelQuad j).2.1)
    (fun c i => if c = 2 then S.diffZ S.L0.dims.nt i (S.unravelQuad j).2.2 else S.dlamZ.get i (S.unravelQuad j).2.2)]
  · rw [t0, t1, t2]
    unfold brr btt bzz
    simp
  · intro c i1 i2 i3 hc hin
    unfold getDLambda2
    rw [Dims.unravelIndex_ravelIndex _ hw.f2.k hin]
    interval_cases c <;> simp [knt]

/-- Total coefficient size of a 0-form. -/
noncomputable def size0 (S : Seq ℝ) (V : Nat → Nat → Nat → Nat → ℝ) : ℝ := size3 S.L0.dims.nr S.L0.dims.nt S.L0.dims.nz (V 0)

/-- Total coefficient size of a 2-form. -/
noncomputable def size2 (S : Seq ℝ) (V : Nat → Nat → Nat → Nat → ℝ) : ℝ :=
  size3 S.L0.dims.nr S.L0.dims.dt S.L0.dims.dz (V 0) + size3 S.L0.dims.dr S.L0.dims.nt S.L0.dims.dz (V 1)
    + size3 S.L0.dims.dr S.L0.dims.dt S.L0.dims.nz (V 2)

/-- `div (ψ B)` in terms of the components and their tabulated derivatives. -/
noncomputable def prodDiv (S : Seq ℝ) (A B : Nat → Nat → Nat → Nat → ℝ) : Nat → Nat → Nat → ℝ :=
  fun p s q => (S.gs A p s q * S.brr B p s q + S.gsr A p s q * S.br B p s q)
    + (S.gs A p s q * S.btt B p s q + S.gst A p s q * S.bt B p s q)
    + (S.gs A p s q * S.bzz B p s q + S.gsz A p s q * S.bz B p s q)

/-- `∫ (ψ div B + grad ψ · B)` with the rule. -/
theorem grad_div {ε L : ℝ} (h : S.ByParts ε L) (v : Fin S.L0.dims.n → ℝ) (b : Fin S.L2.dims.n → ℝ)
    (hv : ∀ j < S.L0.dims.nt, ∀ l < S.L0.dims.nz, coef S.L0.dims v 0 (S.L0.dims.nr - 1) j l = 0)
    (hb : ∀ j < S.L0.dims.dt, ∀ l < S.L0.dims.dz, coef S.L2.dims b 0 (S.L0.dims.nr - 1) j l = 0)
    (hb0 : ∀ j < S.L0.dims.dt, ∀ l < S.L0.dims.dz, coef S.L2.dims b 0 0 j l = 0) :
    |∑ j ∈ range S.nq, S.Q.w.getD j 0 * (evaluateAtXq S.getLambda0 v j 0 * evaluateAtXq S.getDLambda2 b j 0
      + ∑ k ∈ range 3, evaluateAtXq S.getDLambda0 v j k * evaluateAtXq S.getLambda2 b j k)|
      ≤ ε * 4 * L ^ 2 * (S.size0 (coef S.L0.dims v) * S.size2 (coef S.L2.dims b)) := by
  have hw := h.wf
  generalize hA : coef S.L0.dims v = A at *
  generalize hB : coef S.L2.dims b = B at *
  have e : ∀ j, evaluateAtXq S.getLambda0 v j 0 * evaluateAtXq S.getDLambda2 b j 0
      + ∑ k ∈ range 3, evaluateAtXq S.getDLambda0 v j k * evaluateAtXq S.getLambda2 b j k
      = S.prodDiv A B (S.unravelQuad j).1 (S.unravelQuad j).2.1 (S.unravelQuad j).2.2 := by
    intro j
    simp only [Finset.sum_range_succ, Finset.sum_range_zero, zero_add]
    obtain ⟨a0, a1, a2⟩ := grad0_eq hw v j
    obtain ⟨b0, b1, b2⟩ := field2_eq hw b j
    rw [a0, a1, a2, b0, b1, b2, field0_eq hw, div2_eq hw, hA, hB]
    unfold prodDiv
    ring
  have l0 : (0 : ℝ) ≤ L := zero_le_one.trans h.one
  have o0 : (0 : ℝ) ≤ 1 := zero_le_one
  have p1 : |S.quadS fun p s q => S.gs A p s q * S.brr B p s q + S.gsr A p s q * S.br B p s q| ≤ _ :=
    T3_ibpR h.py h.pz h.sy h.sz h.eps (A 0) (B 0) (fun i p => S.lamR.get i p) (fun i p => S.diffR S.L0.dims.nt i p)
    (fun i p => S.lamT.get i p) (fun i p => S.dlamT.get i p) (fun i p => S.lamZ.get i p) (fun i p => S.dlamZ.get i p)
    o0 l0 o0 l0 h.bt h.bdt h.bz h.bdz h.er hv hb (Or.inr hb0)
  have p2 : |S.quadS fun p s q => S.gs A p s q * S.btt B p s q + S.gst A p s q * S.bt B p s q| ≤ _ :=
    T3_ibpT h.px h.pz h.sx h.sz h.eps (A 0) (B 1) (fun i p => S.lamR.get i p) (fun i p => S.dlamR.get i p)
    (fun i p => S.lamT.get i p) (fun i p => S.diffT S.L0.dims.nt i p) (fun i p => S.lamZ.get i p) (fun i p => S.dlamZ.get i p)
    o0 l0 o0 l0 h.br h.bdr h.bz h.bdz h.et
  have p3 : |S.quadS fun p s q => S.gs A p s q * S.bzz B p s q + S.gsz A p s q * S.bz B p s q| ≤ _ :=
    T3_ibpZ h.px h.py h.sx h.sy h.eps (A 0) (B 2) (fun i p => S.lamR.get i p) (fun i p => S.dlamR.get i p)
    (fun i p => S.lamT.get i p) (fun i p => S.dlamT.get i p) (fun i p => S.lamZ.get i p) (fun i p => S.diffZ S.L0.dims.nt i p)
    o0 l0 o0 l0 h.br h.bdr h.bt h.bdt h.ez
  have hsum : (∑ j ∈ range S.nq, S.Q.w.getD j 0 * (evaluateAtXq S.getLambda0 v j 0 * evaluateAtXq S.getDLambda2 b j 0
      + ∑ k ∈ range 3, evaluateAtXq S.getDLambda0 v j k * evaluateAtXq S.getLambda2 b j k)) = S.quadS (S.prodDiv A B) :=
    (Finset.sum_congr rfl fun j _ => congrArg (S.Q.w.getD j 0 * ·) (e j)).trans (quad_sum h _)
  rw [hsum]
  unfold prodDiv
  rw [quadS_add, quadS_add]
  unfold size2 size0
  generalize size3 S.L0.dims.nr S.L0.dims.nt S.L0.dims.nz (A 0) = A0 at *
  generalize size3 S.L0.dims.nr S.L0.dims.dt S.L0.dims.dz (B 0) = B0 at *
  generalize size3 S.L0.dims.dr S.L0.dims.nt S.L0.dims.dz (B 1) = B1 at *
  generalize size3 S.L0.dims.dr S.L0.dims.dt S.L0.dims.nz (B 2) = B2 at *
  refine (abs_add_three _ _ _).trans (le_trans (add_le_add (add_le_add p1 p2) p3) (le_of_eq ?_))
  ring

end Seq
end Mrx
