import Verif.Model.Sequence
import Verif.Proofs.FormEval
import Verif.Props.Quadrature

/-! # The tabulated getters -/

set_option linter.unusedSectionVars false

namespace Mrx
open Finset Jax

variable {K : Type*} [Field K] [LinearOrder K] [IsStrictOrderedRing K]

namespace Seq

/-- The forms of the sequence share bases and sizes, the rule has matching points. -/
structure WF (S : Seq K) : Prop where
  f0 : S.L0.WF
  k0 : S.L0.dims.k = 0
  e1 : S.L1 = { S.L0 with dims := { S.L0.dims with k := 1 } }
  e2 : S.L2 = { S.L0 with dims := { S.L0.dims with k := 2 } }
  e3 : S.L3 = { S.L0 with dims := { S.L0.dims with k := 3 } }

theorem WF.f1 {S : Seq K} (h : S.WF) : S.L1.WF := by
  obtain ⟨a, b, c, d, e, f, g⟩ := h.f0
  rw [h.e1]; exact ⟨by unfold Dims.validDegree; simp, b, c, d, e, f, g⟩
theorem WF.f2 {S : Seq K} (h : S.WF) : S.L2.WF := by
  obtain ⟨a, b, c, d, e, f, g⟩ := h.f0
  rw [h.e2]; exact ⟨by unfold Dims.validDegree; simp, b, c, d, e, f, g⟩
theorem WF.f3 {S : Seq K} (h : S.WF) : S.L3.WF := by
  obtain ⟨a, b, c, d, e, f, g⟩ := h.f0
  rw [h.e3]; exact ⟨by unfold Dims.validDegree; simp, b, c, d, e, f, g⟩

theorem mk?_inv {ns ps : Nat × Nat × Nat} {q : Nat} {types : String × String × String} {S : Seq K}
    (h : mk? ns ps q types = .ok S) :
    Form.mk? 0 ns ps types = .ok S.L0 ∧ Form.mk? 1 ns ps types = .ok S.L1 ∧
    Form.mk? 2 ns ps types = .ok S.L2 ∧ Form.mk? 3 ns ps types = .ok S.L3 ∧
    Quad.Rule.mk? S.L0.Λ0 S.L0.Λ1 S.L0.Λ2 q = .ok S.Q := by
  unfold mk? at h
  split at h
  · split at h
    · cases h
      refine ⟨?_, ?_, ?_, ?_, ?_⟩ <;> assumption
    · cases h
  · cases h

theorem mk?_wf {ns ps : Nat × Nat × Nat} {q : Nat} {types : String × String × String} {S : Seq K}
    (h : mk? ns ps q types = .ok S) : S.WF := by
  obtain ⟨h0, h1, h2, h3, hq⟩ := mk?_inv h
  have hf := Form.mk?_wf h0
  obtain ⟨_, a0, b0, c0, d0, e0, g0, i0⟩ := Form.mk?_inv h0
  have key : ∀ (k : Int) (L : Form K), Form.mk? k ns ps types = .ok L →
      L = { S.L0 with dims := { S.L0.dims with k := k } } := by
    intro k L hL
    obtain ⟨_, a1, b1, c1, d1, e1, g1, i1⟩ := Form.mk?_inv hL
    rw [b0] at b1; rw [c0] at c1; rw [d0] at d1
    have b := Except.ok.inj b1
    have c := Except.ok.inj c1
    have d := Except.ok.inj d1
    rw [← b, e0] at e1; rw [← c, g0] at g1; rw [← d, i0] at i1
    have e := Except.ok.inj e1
    have g := Except.ok.inj g1
    have i := Except.ok.inj i1
    obtain ⟨x0,x1,x2,x3,x4,x5,x6⟩ := L
    simp only [] at *
    subst a1 b c d e g i
    rw [a0]
  exact ⟨hf, by rw [a0], key 1 _ h1, key 2 _ h2, key 3 _ h3⟩

/-- `Q.x[j]`. -/
def point (S : Seq K) (j : Nat) : K × K × K := S.Q.x.getD j (0, 0, 0)

/-- Number of quadrature points. -/
def nq (S : Seq K) : Nat := S.Q.xy.length * S.Q.xx.length * S.Q.xz.length

/-- The quadrature rule is a tensor rule. -/
def IsTensor (S : Seq K) : Prop :=
  S.Q.x = S.Q.xy.flatMap fun y => S.Q.xx.flatMap fun x => S.Q.xz.map fun z => (x, y, z)

theorem rule_isTensor {bx by' bz : SplineBasis K} {p : Nat} {Q : Quad.Rule K}
    (h : Quad.Rule.mk? bx by' bz p = .ok Q) :
    Q.x = Q.xy.flatMap fun y => Q.xx.flatMap fun x => Q.xz.map fun z => (x, y, z) := by
  unfold Quad.Rule.mk? at h
  split at h
  · cases h; rfl
  · cases h

theorem unravelQuad_spec (S : Seq K) {j : Nat} (hj : j < S.nq) :
    (S.unravelQuad j).1 < S.Q.xx.length ∧ (S.unravelQuad j).2.1 < S.Q.xy.length ∧
    (S.unravelQuad j).2.2 < S.Q.xz.length ∧
    ((S.unravelQuad j).2.1 * S.Q.xx.length + (S.unravelQuad j).1) * S.Q.xz.length
      + (S.unravelQuad j).2.2 = j := by
  obtain ⟨a, b, c, d⟩ := unravelIndex3_spec hj
  exact ⟨b, a, c, d⟩

theorem point_eq (S : Seq K) (hS : S.IsTensor) {j : Nat} (hj : j < S.nq) :
    S.point j = (S.Q.xx.getD (S.unravelQuad j).1 0, S.Q.xy.getD (S.unravelQuad j).2.1 0,
      S.Q.xz.getD (S.unravelQuad j).2.2 0) := by
  obtain ⟨a, b, c, d⟩ := S.unravelQuad_spec hj
  have h := (Props.C14_tensor_rule_order (S.Q.xx, S.Q.xx) (S.Q.xy, S.Q.xy) (S.Q.xz, S.Q.xz) rfl rfl rfl).2.2
    _ _ _ a b c
  have h1 := h.1
  simp only [d] at h1
  have : (Quad.Rule.ofRules (S.Q.xx, S.Q.xx) (S.Q.xy, S.Q.xy) (S.Q.xz, S.Q.xz)).x = S.Q.x := by
    rw [hS]; rfl
  rw [this] at h1
  unfold point
  rw [List.getD_eq_getElem?_getD, h1]
  simp [List.getD_eq_getElem?_getD, a, b, c]

theorem tab_get {n c : Nat} {val : Nat → Nat → K} {i j : Nat} (hi : i < n) (hj : j < c) :
    (Table.mk n c val).get i j = val i j := by
  unfold Table.get
  simp only []
  rw [Nat.min_eq_left (by omega), Nat.min_eq_left (by omega)]

section get
variable {S : Seq K} (hw : S.WF)
include hw

theorem lamR_get {i j : Nat} (hi : i < S.L0.dims.nr) (hj : j < S.Q.xx.length) :
    S.lamR.get i j = S.L0.Λ0.evaluate (S.Q.xx.getD j 0) i := tab_get (by rw [hw.f0.r]; exact hi) hj
theorem lamT_get {i j : Nat} (hi : i < S.L0.dims.nt) (hj : j < S.Q.xy.length) :
    S.lamT.get i j = S.L0.Λ1.evaluate (S.Q.xy.getD j 0) i := tab_get (by rw [hw.f0.t]; exact hi) hj
theorem lamZ_get {i j : Nat} (hi : i < S.L0.dims.nz) (hj : j < S.Q.xz.length) :
    S.lamZ.get i j = S.L0.Λ2.evaluate (S.Q.xz.getD j 0) i := tab_get (by rw [hw.f0.z]; exact hi) hj
theorem dlamR_get {i j : Nat} (hi : i < S.L0.dims.dr) (hj : j < S.Q.xx.length) :
    S.dlamR.get i j = S.L0.dΛ0.evaluate (S.Q.xx.getD j 0) i := tab_get (by rw [hw.f0.dr]; exact hi) hj
theorem dlamT_get {i j : Nat} (hi : i < S.L0.dims.dt) (hj : j < S.Q.xy.length) :
    S.dlamT.get i j = S.L0.dΛ1.evaluate (S.Q.xy.getD j 0) i := tab_get (by rw [hw.f0.dt]; exact hi) hj
theorem dlamZ_get {i j : Nat} (hi : i < S.L0.dims.dz) (hj : j < S.Q.xz.length) :
    S.dlamZ.get i j = S.L0.dΛ2.evaluate (S.Q.xz.getD j 0) i := tab_get (by rw [hw.f0.dz]; exact hi) hj

variable (ht : S.IsTensor) {c i1 i2 i3 j : Nat} (hj : j < S.nq)
include ht hj

theorem getLambda0_ravel (h : S.L0.dims.InRange c i1 i2 i3) (k : Nat) :
    S.getLambda0 (S.L0.dims.ravelIndex c i1 i2 i3) j k = Spec.basisValue S.L0 0 (S.point j) i1 i2 i3 := by
  obtain ⟨a1, a2, a3, _⟩ := S.unravelQuad_spec hj
  have hc := h.comp_lt
  have hk := hw.k0
  rw [S.point_eq ht hj]
  unfold getLambda0
  rw [Dims.unravelIndex_ravelIndex _ hw.f0.k h]
  obtain ⟨h1, h2, h3⟩ := h
  simp [Dims.shape, hk] at hc
  subst hc
  simp [Dims.cshape, Dims.shape, hk] at h1 h2 h3
  simp only [lamR_get hw h1 a1, lamT_get hw h2 a2, lamZ_get hw h3 a3]
  simp [Spec.basisValue, Spec.factor, Spec.isDeriv, hk]

theorem getLambda1_ravel (h : S.L1.dims.InRange c i1 i2 i3) (k : Nat) :
    S.getLambda1 (S.L1.dims.ravelIndex c i1 i2 i3) j k
      = if k = c then Spec.basisValue S.L1 c (S.point j) i1 i2 i3 else 0 := by
  obtain ⟨a1, a2, a3, _⟩ := S.unravelQuad_spec hj
  have hc := h.comp_lt
  rw [S.point_eq ht hj]
  unfold getLambda1
  rw [Dims.unravelIndex_ravelIndex _ hw.f1.k h]
  obtain ⟨h1, h2, h3⟩ := h
  rw [hw.e1] at *
  simp [Dims.shape] at hc
  by_cases hkc : k = c
  · subst hkc
    interval_cases k <;> simp [Dims.cshape, Dims.shape] at h1 h2 h3
    · simp [dlamR_get hw h1 a1, lamT_get hw h2 a2, lamZ_get hw h3 a3, Spec.basisValue, Spec.factor, Spec.isDeriv]
    · simp [lamR_get hw h1 a1, dlamT_get hw h2 a2, lamZ_get hw h3 a3, Spec.basisValue, Spec.factor, Spec.isDeriv]
    · simp [lamR_get hw h1 a1, lamT_get hw h2 a2, dlamZ_get hw h3 a3, Spec.basisValue, Spec.factor, Spec.isDeriv]
  · simp [hkc]

theorem getLambda2_ravel (h : S.L2.dims.InRange c i1 i2 i3) (k : Nat) :
    S.getLambda2 (S.L2.dims.ravelIndex c i1 i2 i3) j k
      = if k = c then Spec.basisValue S.L2 c (S.point j) i1 i2 i3 else 0 := by
  obtain ⟨a1, a2, a3, _⟩ := S.unravelQuad_spec hj
  have hc := h.comp_lt
  rw [S.point_eq ht hj]
  unfold getLambda2
  rw [Dims.unravelIndex_ravelIndex _ hw.f2.k h]
  obtain ⟨h1, h2, h3⟩ := h
  rw [hw.e2] at *
  simp [Dims.shape] at hc
  by_cases hkc : k = c
  · subst hkc
    interval_cases k <;> simp [Dims.cshape, Dims.shape] at h1 h2 h3
    · simp [lamR_get hw h1 a1, dlamT_get hw h2 a2, dlamZ_get hw h3 a3, Spec.basisValue, Spec.factor, Spec.isDeriv]
    · simp [dlamR_get hw h1 a1, lamT_get hw h2 a2, dlamZ_get hw h3 a3, Spec.basisValue, Spec.factor, Spec.isDeriv]
    · simp [dlamR_get hw h1 a1, dlamT_get hw h2 a2, lamZ_get hw h3 a3, Spec.basisValue, Spec.factor, Spec.isDeriv]
  · simp [hkc]

theorem getLambda3_ravel (h : S.L3.dims.InRange c i1 i2 i3) (k : Nat) :
    S.getLambda3 (S.L3.dims.ravelIndex c i1 i2 i3) j k = Spec.basisValue S.L3 0 (S.point j) i1 i2 i3 := by
  obtain ⟨a1, a2, a3, _⟩ := S.unravelQuad_spec hj
  have hc := h.comp_lt
  rw [S.point_eq ht hj]
  unfold getLambda3
  rw [Dims.unravelIndex_ravelIndex _ hw.f3.k h]
  obtain ⟨h1, h2, h3⟩ := h
  rw [hw.e3] at *
  simp [Dims.shape] at hc
  subst hc
  simp [Dims.cshape, Dims.shape] at h1 h2 h3
  simp [dlamR_get hw h1 a1, dlamT_get hw h2 a2, dlamZ_get hw h3 a3, Spec.basisValue, Spec.factor, Spec.isDeriv]

end get
end Seq
end Mrx
