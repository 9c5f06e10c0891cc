import Verif.Proofs.ByParts

/-! # Integration by parts for the mixed matrix of a sequence -/

set_option linter.unusedSectionVars false
set_option linter.unusedVariables false

namespace Mrx
open Finset Jax Spec Matrix

namespace Seq

/-- Tensor weights, positivity, bounds of the tables, and one-dimensional integration by parts up to `ε` (for the radial direction away
from the outermost function, with the boundary term at the axis). -/
structure ByParts (S : Seq ℝ) (ε L : ℝ) : Prop where
  wf : S.WF
  eps : 0 ≤ ε
  one : 1 ≤ L
  len : S.Q.w.length = S.nq
  weight : ∀ j < S.nq, S.Q.w.getD j 0 = S.Q.wx.getD (S.unravelQuad j).1 0 * S.Q.wy.getD (S.unravelQuad j).2.1 0
    * S.Q.wz.getD (S.unravelQuad j).2.2 0
  px : ∀ i < S.Q.xx.length, 0 ≤ S.Q.wx.getD i 0
  py : ∀ i < S.Q.xy.length, 0 ≤ S.Q.wy.getD i 0
  pz : ∀ i < S.Q.xz.length, 0 ≤ S.Q.wz.getD i 0
  sx : ∑ i ∈ range S.Q.xx.length, S.Q.wx.getD i 0 ≤ 2
  sy : ∑ i ∈ range S.Q.xy.length, S.Q.wy.getD i 0 ≤ 2
  sz : ∑ i ∈ range S.Q.xz.length, S.Q.wz.getD i 0 ≤ 2
  br : ∀ p < S.Q.xx.length, ∀ i < S.L0.dims.nr, |S.lamR.get i p| ≤ 1
  bt : ∀ p < S.Q.xy.length, ∀ i < S.L0.dims.nt, |S.lamT.get i p| ≤ 1
  bz : ∀ p < S.Q.xz.length, ∀ i < S.L0.dims.nz, |S.lamZ.get i p| ≤ 1
  bdr : ∀ p < S.Q.xx.length, ∀ i < S.L0.dims.dr, |S.dlamR.get i p| ≤ L
  bdt : ∀ p < S.Q.xy.length, ∀ i < S.L0.dims.dt, |S.dlamT.get i p| ≤ L
  bdz : ∀ p < S.Q.xz.length, ∀ i < S.L0.dims.dz, |S.dlamZ.get i p| ≤ L
  er : ∀ m < S.L0.dims.nr - 1, ∀ m' < S.L0.dims.nr - 1, |∑ s ∈ range S.Q.xx.length, S.Q.wx.getD s 0 *
    (S.lamR.get m s * S.diffR S.L0.dims.nt m' s + S.diffR S.L0.dims.nt m s * S.lamR.get m' s)
      - (if m = 0 ∧ m' = 0 then -1 else 0)| ≤ ε
  et : ∀ m < S.L0.dims.nt, ∀ m' < S.L0.dims.nt, |∑ s ∈ range S.Q.xy.length, S.Q.wy.getD s 0 *
    (S.lamT.get m s * S.diffT S.L0.dims.nt m' s + S.diffT S.L0.dims.nt m s * S.lamT.get m' s)| ≤ ε
  ez : ∀ m < S.L0.dims.nz, ∀ m' < S.L0.dims.nz, |∑ s ∈ range S.Q.xz.length, S.Q.wz.getD s 0 *
    (S.lamZ.get m s * S.diffZ S.L0.dims.nt m' s + S.diffZ S.L0.dims.nt m s * S.lamZ.get m' s)| ≤ ε

variable {S : Seq ℝ}

/-- A quadrature sum over all points is a triple sum. -/
theorem quad_sum {ε L : ℝ} (h : S.ByParts ε L) (f : Nat → Nat → Nat → ℝ) :
    ∑ j ∈ range S.nq, S.Q.w.getD j 0 * f (S.unravelQuad j).1 (S.unravelQuad j).2.1 (S.unravelQuad j).2.2
      = ∑ p ∈ range S.Q.xx.length, ∑ s ∈ range S.Q.xy.length, ∑ q ∈ range S.Q.xz.length,
        S.Q.wx.getD p 0 * S.Q.wy.getD s 0 * S.Q.wz.getD q 0 * f p s q := by
  have e : ∑ j ∈ range S.nq, S.Q.w.getD j 0 * f (S.unravelQuad j).1 (S.unravelQuad j).2.1 (S.unravelQuad j).2.2
      = ∑ j ∈ range S.nq, S.Q.wx.getD (S.unravelQuad j).1 0 * S.Q.wy.getD (S.unravelQuad j).2.1 0
        * S.Q.wz.getD (S.unravelQuad j).2.2 0 * f (S.unravelQuad j).1 (S.unravelQuad j).2.1 (S.unravelQuad j).2.2 :=
    Finset.sum_congr rfl fun j hj => by rw [h.weight j (mem_range.mp hj)]
  rw [e]
  have hn : S.nq = S.Q.xy.length * S.Q.xx.length * S.Q.xz.length := rfl
  rw [hn, sum_range_mul3, Finset.sum_comm]
  refine Finset.sum_congr rfl fun p hp => Finset.sum_congr rfl fun s hs => Finset.sum_congr rfl fun q hq => ?_
  have hu : S.unravelQuad ((s * S.Q.xx.length + p) * S.Q.xz.length + q) = (p, s, q) := by
    unfold unravelQuad
    rw [unravelIndex3_flat (mem_range.mp hs) (mem_range.mp hp) (mem_range.mp hq)]
  rw [hu]

/-- The rule applied to a function of the three quadrature indices. -/
noncomputable def quadS (S : Seq ℝ) (f : Nat → Nat → Nat → ℝ) : ℝ :=
  ∑ p ∈ range S.Q.xx.length, ∑ s ∈ range S.Q.xy.length, ∑ q ∈ range S.Q.xz.length,
    S.Q.wx.getD p 0 * S.Q.wy.getD s 0 * S.Q.wz.getD q 0 * f p s q

theorem quadS_add (f g : Nat → Nat → Nat → ℝ) : S.quadS (fun p s q => f p s q + g p s q) = S.quadS f + S.quadS g := by
  unfold quadS
  simp only [mul_add, Finset.sum_add_distrib]

theorem quadS_sub (f g : Nat → Nat → Nat → ℝ) : S.quadS (fun p s q => f p s q - g p s q) = S.quadS f - S.quadS g := by
  unfold quadS
  simp only [mul_sub, Finset.sum_sub_distrib]

/-- Components of a 1-form with coefficients `V` at quadrature indices. -/
noncomputable def fr (S : Seq ℝ) (V : Nat → Nat → Nat → Nat → ℝ) (p s q : Nat) : ℝ :=
  T3 S.L0.dims.dr S.L0.dims.nt S.L0.dims.nz (V 0) (fun i => S.dlamR.get i p) (fun i => S.lamT.get i s) (fun i => S.lamZ.get i q)
noncomputable def ft (S : Seq ℝ) (V : Nat → Nat → Nat → Nat → ℝ) (p s q : Nat) : ℝ :=
  T3 S.L0.dims.nr S.L0.dims.dt S.L0.dims.nz (V 1) (fun i => S.lamR.get i p) (fun i => S.dlamT.get i s) (fun i => S.lamZ.get i q)
noncomputable def fz (S : Seq ℝ) (V : Nat → Nat → Nat → Nat → ℝ) (p s q : Nat) : ℝ :=
  T3 S.L0.dims.nr S.L0.dims.nt S.L0.dims.dz (V 2) (fun i => S.lamR.get i p) (fun i => S.lamT.get i s) (fun i => S.dlamZ.get i q)
/-- Their tabulated partial derivatives. -/
noncomputable def frt (S : Seq ℝ) (V : Nat → Nat → Nat → Nat → ℝ) (p s q : Nat) : ℝ :=
  T3 S.L0.dims.dr S.L0.dims.nt S.L0.dims.nz (V 0) (fun i => S.dlamR.get i p) (fun i => S.diffT S.L0.dims.nt i s) (fun i => S.lamZ.get i q)
noncomputable def frz (S : Seq ℝ) (V : Nat → Nat → Nat → Nat → ℝ) (p s q : Nat) : ℝ :=
  T3 S.L0.dims.dr S.L0.dims.nt S.L0.dims.nz (V 0) (fun i => S.dlamR.get i p) (fun i => S.lamT.get i s) (fun i => S.diffZ S.L0.dims.nt i q)
noncomputable def ftr (S : Seq ℝ) (V : Nat → Nat → Nat → Nat → ℝ) (p s q : Nat) : ℝ :=
  T3 S.L0.dims.nr S.L0.dims.dt S.L0.dims.nz (V 1) (fun i => S.diffR S.L0.dims.nt i p) (fun i => S.dlamT.get i s) (fun i => S.lamZ.get i q)
noncomputable def ftz (S : Seq ℝ) (V : Nat → Nat → Nat → Nat → ℝ) (p s q : Nat) : ℝ :=
  T3 S.L0.dims.nr S.L0.dims.dt S.L0.dims.nz (V 1) (fun i => S.lamR.get i p) (fun i => S.dlamT.get i s) (fun i => S.diffZ S.L0.dims.nt i q)
noncomputable def fzr (S : Seq ℝ) (V : Nat → Nat → Nat → Nat → ℝ) (p s q : Nat) : ℝ :=
  T3 S.L0.dims.nr S.L0.dims.nt S.L0.dims.dz (V 2) (fun i => S.diffR S.L0.dims.nt i p) (fun i => S.lamT.get i s) (fun i => S.dlamZ.get i q)
noncomputable def fzt (S : Seq ℝ) (V : Nat → Nat → Nat → Nat → ℝ) (p s q : Nat) : ℝ :=
  T3 S.L0.dims.nr S.L0.dims.nt S.L0.dims.dz (V 2) (fun i => S.lamR.get i p) (fun i => S.diffT S.L0.dims.nt i s) (fun i => S.dlamZ.get i q)

theorem field1_eq (hw : S.WF) (v : Fin S.L1.dims.n → ℝ) (j : Nat) :
    evaluateAtXq S.getLambda1 v j 0 = S.fr (coef S.L1.dims v) (S.unravelQuad j).1 (S.unravelQuad j).2.1 (S.unravelQuad j).2.2 ∧
    evaluateAtXq S.getLambda1 v j 1 = S.ft (coef S.L1.dims v) (S.unravelQuad j).1 (S.unravelQuad j).2.1 (S.unravelQuad j).2.2 ∧
    evaluateAtXq S.getLambda1 v j 2 = S.fz (coef S.L1.dims v) (S.unravelQuad j).1 (S.unravelQuad j).2.1 (S.unravelQuad j).2.2 := by
  have hd1 := (nr_eq hw).1
  have s0 : S.L1.dims.cshape 0 = (S.L0.dims.dr, S.L0.dims.nt, S.L0.dims.nz) := by simp [Dims.cshape, Dims.shape, hd1]
  have s1 : S.L1.dims.cshape 1 = (S.L0.dims.nr, S.L0.dims.dt, S.L0.dims.nz) := by simp [Dims.cshape, Dims.shape, hd1]
  have s2 : S.L1.dims.cshape 2 = (S.L0.dims.nr, S.L0.dims.nt, S.L0.dims.dz) := by simp [Dims.cshape, Dims.shape, hd1]
  have hk : S.L1.dims.k = 1 := by rw [hd1]
  refine ⟨?_, ?_, ?_⟩
  · rw [field1 hw v j 0 (by omega)]; unfold compVal; rw [s0, hk]; rfl
  · rw [field1 hw v j 1 (by omega)]; unfold compVal; rw [s1, hk]; rfl
  · rw [field1 hw v j 2 (by omega)]; unfold compVal; rw [s2, hk]; rfl

theorem curl1_eq (hw : S.WF) (v : Fin S.L1.dims.n → ℝ) (j : Nat) :
    evaluateAtXq S.getDLambda1 v j 0 = S.fzt (coef S.L1.dims v) (S.unravelQuad j).1 (S.unravelQuad j).2.1 (S.unravelQuad j).2.2
      - S.ftz (coef S.L1.dims v) (S.unravelQuad j).1 (S.unravelQuad j).2.1 (S.unravelQuad j).2.2 ∧
    evaluateAtXq S.getDLambda1 v j 1 = S.frz (coef S.L1.dims v) (S.unravelQuad j).1 (S.unravelQuad j).2.1 (S.unravelQuad j).2.2
      - S.fzr (coef S.L1.dims v) (S.unravelQuad j).1 (S.unravelQuad j).2.1 (S.unravelQuad j).2.2 ∧
    evaluateAtXq S.getDLambda1 v j 2 = S.ftr (coef S.L1.dims v) (S.unravelQuad j).1 (S.unravelQuad j).2.1 (S.unravelQuad j).2.2
      - S.frt (coef S.L1.dims v) (S.unravelQuad j).1 (S.unravelQuad j).2.1 (S.unravelQuad j).2.2 := by
  have hd1 := (nr_eq hw).1
  have knt : S.L1.dims.nt = S.L0.dims.nt := by rw [hd1]
  have s0 : S.L1.dims.cshape 0 = (S.L0.dims.dr, S.L0.dims.nt, S.L0.dims.nz) := by simp [Dims.cshape, Dims.shape, hd1]
  have s1 : S.L1.dims.cshape 1 = (S.L0.dims.nr, S.L0.dims.dt, S.L0.dims.nz) := by simp [Dims.cshape, Dims.shape, hd1]
  have s2 : S.L1.dims.cshape 2 = (S.L0.dims.nr, S.L0.dims.nt, S.L0.dims.dz) := by simp [Dims.cshape, Dims.shape, hd1]
  have key : ∀ k, k < 3 → evaluateAtXq S.getDLambda1 v j k = _ := fun k hk => by
    unfold evaluateAtXq
    exact field_vec _ hw.f1.k v (fun a => S.getDLambda1 a j k)
      (fun c => if c = k then 0 else if (c + 1) % 3 = k then 1 else -1)
      (fun c i => if c ≠ 0 ∧ k ≠ 0 ∧ c ≠ k then S.diffR S.L0.dims.nt i (S.unravelQuad j).1
        else if c = 0 then S.dlamR.get i (S.unravelQuad j).1 else S.lamR.get i (S.unravelQuad j).1)
      (fun c i => if c ≠ 1 ∧ k ≠ 1 ∧ c ≠ k then S.diffT S.L0.dims.nt i (S.unravelQuad j).2.1
        else if c = 1 then S.dlamT.get i (S.unravelQuad j).2.1 else S.lamT.get i (S.unravelQuad j).2.1)
      (fun c i => if c ≠ 2 ∧ k ≠ 2 ∧ c ≠ k then S.diffZ S.L0.dims.nt i (S.unravelQuad j).2.2
        else if c = 2 then S.dlamZ.get i (S.unravelQuad j).2.2 else S.lamZ.get i (S.unravelQuad j).2.2)
      (by
        intro c i1 i2 i3 hc hin
        unfold getDLambda1
        rw [Dims.unravelIndex_ravelIndex _ hw.f1.k hin]
        interval_cases c <;> interval_cases k <;> simp [knt])
  refine ⟨?_, ?_, ?_⟩
  · rw [key 0 (by omega), s0, s1, s2]
    unfold fzt ftz
    simp
    ring
  · rw [key 1 (by omega), s0, s1, s2]
    unfold fzr frz
    simp
    ring
  · rw [key 2 (by omega), s0, s1, s2]
    unfold ftr frt
    simp
    ring

/-- Total coefficient size of a 1-form. -/
noncomputable def size1 (S : Seq ℝ) (V : Nat → Nat → Nat → Nat → ℝ) : ℝ :=
  size3 S.L0.dims.dr S.L0.dims.nt S.L0.dims.nz (V 0) + size3 S.L0.dims.nr S.L0.dims.dt S.L0.dims.nz (V 1)
    + size3 S.L0.dims.nr S.L0.dims.nt S.L0.dims.dz (V 2)

/-- Values on the first and last radial index that make the boundary terms vanish (1-forms). -/
structure Ring1 (S : Seq ℝ) (V : Nat → Nat → Nat → Nat → ℝ) : Prop where
  t0 : ∀ j < S.L0.dims.dt, ∀ l < S.L0.dims.nz, V 1 0 j l = 0
  tl : ∀ j < S.L0.dims.dt, ∀ l < S.L0.dims.nz, V 1 (S.L0.dims.nr - 1) j l = 0
  zl : ∀ j < S.L0.dims.nt, ∀ l < S.L0.dims.dz, V 2 (S.L0.dims.nr - 1) j l = 0

/-- `-div (a × b)` in terms of the components and their tabulated derivatives. -/
noncomputable def crossDiv (S : Seq ℝ) (A B : Nat → Nat → Nat → Nat → ℝ) : Nat → Nat → Nat → ℝ :=
  fun p s q => (S.fr A p s q * S.fzt B p s q + S.frt A p s q * S.fz B p s q)
        - (S.fz A p s q * S.frt B p s q + S.fzt A p s q * S.fr B p s q)
        - (S.fr A p s q * S.ftz B p s q + S.frz A p s q * S.ft B p s q)
        + (S.ft A p s q * S.frz B p s q + S.ftz A p s q * S.fr B p s q)
        - (S.ft A p s q * S.fzr B p s q + S.ftr A p s q * S.fz B p s q)
        + (S.fz A p s q * S.ftr B p s q + S.fzr A p s q * S.ft B p s q)

/-- `∫ (a · curl b - b · curl a)` with the rule. -/
theorem curl_symm {ε L : ℝ} (h : S.ByParts ε L) (v v' : Fin S.L1.dims.n → ℝ) (hv : S.Ring1 (coef S.L1.dims v)) (hv' : S.Ring1 (coef S.L1.dims v')) :
    |∑ j ∈ range S.nq, S.Q.w.getD j 0 * (∑ k ∈ range 3, evaluateAtXq S.getLambda1 v j k * evaluateAtXq S.getDLambda1 v' j k
      - ∑ k ∈ range 3, evaluateAtXq S.getLambda1 v' j k * evaluateAtXq S.getDLambda1 v j k)|
      ≤ ε * 4 * L ^ 2 * (S.size1 (coef S.L1.dims v) * S.size1 (coef S.L1.dims v')) := by
  have hw := h.wf
  generalize hA : coef S.L1.dims v = A at *
  generalize hB : coef S.L1.dims v' = B at *
  have e : ∀ j, (∑ k ∈ range 3, evaluateAtXq S.getLambda1 v j k * evaluateAtXq S.getDLambda1 v' j k
      - ∑ k ∈ range 3, evaluateAtXq S.getLambda1 v' j k * evaluateAtXq S.getDLambda1 v j k)
      = S.crossDiv A B
        (S.unravelQuad j).1 (S.unravelQuad j).2.1 (S.unravelQuad j).2.2 := by
    intro j
    simp only [Finset.sum_range_succ, Finset.sum_range_zero, zero_add]
    obtain ⟨a0, a1, a2⟩ := field1_eq hw v j
    obtain ⟨b0, b1, b2⟩ := field1_eq hw v' j
    obtain ⟨c0, c1, c2⟩ := curl1_eq hw v j
    obtain ⟨d0, d1, d2⟩ := curl1_eq hw v' j
    rw [a0, a1, a2, b0, b1, b2, c0, c1, c2, d0, d1, d2, hA, hB]
    unfold crossDiv
    ring
  have l0 : (0 : ℝ) ≤ L := zero_le_one.trans h.one
  have o0 : (0 : ℝ) ≤ 1 := zero_le_one
  have p1 : |S.quadS fun p s q => S.fr A p s q * S.fzt B p s q + S.frt A p s q * S.fz B p s q| ≤ _ :=
    T3_ibpT h.px h.pz h.sx h.sz h.eps (A 0) (B 2) (fun i p => S.dlamR.get i p) (fun i p => S.lamR.get i p)
    (fun i p => S.lamT.get i p) (fun i p => S.diffT S.L0.dims.nt i p) (fun i p => S.lamZ.get i p) (fun i p => S.dlamZ.get i p)
    l0 o0 o0 l0 h.bdr h.br h.bz h.bdz h.et
  have p2 : |S.quadS fun p s q => S.fz A p s q * S.frt B p s q + S.fzt A p s q * S.fr B p s q| ≤ _ :=
    T3_ibpT h.px h.pz h.sx h.sz h.eps (A 2) (B 0) (fun i p => S.lamR.get i p) (fun i p => S.dlamR.get i p)
    (fun i p => S.lamT.get i p) (fun i p => S.diffT S.L0.dims.nt i p) (fun i p => S.dlamZ.get i p) (fun i p => S.lamZ.get i p)
    o0 l0 l0 o0 h.br h.bdr h.bdz h.bz h.et
  have p3 : |S.quadS fun p s q => S.fr A p s q * S.ftz B p s q + S.frz A p s q * S.ft B p s q| ≤ _ :=
    T3_ibpZ h.px h.py h.sx h.sy h.eps (A 0) (B 1) (fun i p => S.dlamR.get i p) (fun i p => S.lamR.get i p)
    (fun i p => S.lamT.get i p) (fun i p => S.dlamT.get i p) (fun i p => S.lamZ.get i p) (fun i p => S.diffZ S.L0.dims.nt i p)
    l0 o0 o0 l0 h.bdr h.br h.bt h.bdt h.ez
  have p4 : |S.quadS fun p s q => S.ft A p s q * S.frz B p s q + S.ftz A p s q * S.fr B p s q| ≤ _ :=
    T3_ibpZ h.px h.py h.sx h.sy h.eps (A 1) (B 0) (fun i p => S.lamR.get i p) (fun i p => S.dlamR.get i p)
    (fun i p => S.dlamT.get i p) (fun i p => S.lamT.get i p) (fun i p => S.lamZ.get i p) (fun i p => S.diffZ S.L0.dims.nt i p)
    o0 l0 l0 o0 h.br h.bdr h.bdt h.bt h.ez
  have p5 : |S.quadS fun p s q => S.ft A p s q * S.fzr B p s q + S.ftr A p s q * S.fz B p s q| ≤ _ :=
    T3_ibpR h.py h.pz h.sy h.sz h.eps (A 1) (B 2) (fun i p => S.lamR.get i p) (fun i p => S.diffR S.L0.dims.nt i p)
    (fun i p => S.dlamT.get i p) (fun i p => S.lamT.get i p) (fun i p => S.lamZ.get i p) (fun i p => S.dlamZ.get i p)
    l0 o0 o0 l0 h.bdt h.bt h.bz h.bdz h.er hv.tl hv'.zl (Or.inl hv.t0)
  have p6 : |S.quadS fun p s q => S.fz A p s q * S.ftr B p s q + S.fzr A p s q * S.ft B p s q| ≤ _ :=
    T3_ibpR h.py h.pz h.sy h.sz h.eps (A 2) (B 1) (fun i p => S.lamR.get i p) (fun i p => S.diffR S.L0.dims.nt i p)
    (fun i p => S.lamT.get i p) (fun i p => S.dlamT.get i p) (fun i p => S.dlamZ.get i p) (fun i p => S.lamZ.get i p)
    o0 l0 l0 o0 h.bt h.bdt h.bdz h.bz h.er hv.zl hv'.tl (Or.inr hv'.t0)
  have hsum : (∑ j ∈ range S.nq, S.Q.w.getD j 0 * (∑ k ∈ range 3, evaluateAtXq S.getLambda1 v j k * evaluateAtXq S.getDLambda1 v' j k
      - ∑ k ∈ range 3, evaluateAtXq S.getLambda1 v' j k * evaluateAtXq S.getDLambda1 v j k)) = S.quadS (S.crossDiv A B) :=
    (Finset.sum_congr rfl fun j _ => congrArg (S.Q.w.getD j 0 * ·) (e j)).trans (quad_sum h _)
  rw [hsum]
  unfold crossDiv
  rw [quadS_add, quadS_sub, quadS_add, quadS_sub, quadS_sub]
  have n0 := size3_nonneg S.L0.dims.dr S.L0.dims.nt S.L0.dims.nz (A 0)
  have n1 := size3_nonneg S.L0.dims.nr S.L0.dims.dt S.L0.dims.nz (A 1)
  have n2 := size3_nonneg S.L0.dims.nr S.L0.dims.nt S.L0.dims.dz (A 2)
  have m0 := size3_nonneg S.L0.dims.dr S.L0.dims.nt S.L0.dims.nz (B 0)
  have m1 := size3_nonneg S.L0.dims.nr S.L0.dims.dt S.L0.dims.nz (B 1)
  have m2 := size3_nonneg S.L0.dims.nr S.L0.dims.nt S.L0.dims.dz (B 2)
  unfold size1
  have hK : 0 ≤ ε * 4 * L ^ 2 := by have := h.eps; positivity
  generalize size3 S.L0.dims.dr S.L0.dims.nt S.L0.dims.nz (A 0) = A0 at *
  generalize size3 S.L0.dims.nr S.L0.dims.dt S.L0.dims.nz (A 1) = A1 at *
  generalize size3 S.L0.dims.nr S.L0.dims.nt S.L0.dims.dz (A 2) = A2 at *
  generalize size3 S.L0.dims.dr S.L0.dims.nt S.L0.dims.nz (B 0) = B0 at *
  generalize size3 S.L0.dims.nr S.L0.dims.dt S.L0.dims.nz (B 1) = B1 at *
  generalize size3 S.L0.dims.nr S.L0.dims.nt S.L0.dims.dz (B 2) = B2 at *
  have tri : ∀ x1 x2 x3 x4 x5 x6 : ℝ, |x1 - x2 - x3 + x4 - x5 + x6| ≤ |x1| + |x2| + |x3| + |x4| + |x5| + |x6| := by
    intro x1 x2 x3 x4 x5 x6
    rw [abs_le]
    constructor <;>
    linarith [le_abs_self x1, neg_abs_le x1, le_abs_self x2, neg_abs_le x2, le_abs_self x3, neg_abs_le x3, le_abs_self x4, neg_abs_le x4,
      le_abs_self x5, neg_abs_le x5, le_abs_self x6, neg_abs_le x6]
  refine (tri _ _ _ _ _ _).trans ?_
  have q1 : ε * 4 * L ^ 2 * (A0 * B2 + A2 * B0 + A0 * B1 + A1 * B0 + A1 * B2 + A2 * B1) ≤ ε * 4 * L ^ 2 * ((A0 + A1 + A2) * (B0 + B1 + B2)) := by
    refine mul_le_mul_of_nonneg_left ?_ hK
    nlinarith [mul_nonneg n0 m0, mul_nonneg n1 m1, mul_nonneg n2 m2]
  refine le_trans (le_trans (add_le_add (add_le_add (add_le_add (add_le_add (add_le_add p1 p2) p3) p4) p5) p6) (le_of_eq ?_)) q1
  ring

end Seq
end Mrx
