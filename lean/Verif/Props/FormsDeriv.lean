import Verif.Proofs.GetterDeriv

/-!
# C20: tabulated exterior derivatives

`Spec.HasPartial g dir v x`: the partial derivative of `g` in direction `dir` at `x` exists and is `v`.
-/

set_option linter.unusedSectionVars false

namespace Mrx.Props
open Finset Mrx Spec

section Aux
variable {S : Seq ℝ} (hw : S.WF) (ht : S.IsTensor) (hd : S.DerivOK) {j : Nat} (hj : j < S.nq)
include hw ht hd hj

/-- Partial derivatives of basis functions at quadrature points. -/
theorem form_partial (L : Form ℝ) (k : Int) (hL : L = { S.L0 with dims := { S.L0.dims with k := k } })
    (hk : Dims.validDegree k) {c i1 i2 i3 : Nat} (h : L.dims.InRange c i1 i2 i3) (comp : Nat)
    (hcomp : comp < L.dims.shape.length)
    (dir : Nat) (hdir : dir < 3) (hder : isDeriv k c dir = false) :
    HasPartial (fun y => L.evaluate y (L.dims.ravelIndex c i1 i2 i3) comp) dir
      (if comp = c then
        (if dir = 0 then S.trueDiffR i1 (S.unravelQuad j).1 else factor L (isDeriv k c 0) 0 (S.point j).1 i1)
        * (if dir = 1 then S.trueDiffT i2 (S.unravelQuad j).2.1
            else factor L (isDeriv k c 1) 1 (S.point j).2.1 i2)
        * (if dir = 2 then S.trueDiffZ i3 (S.unravelQuad j).2.2
            else factor L (isDeriv k c 2) 2 (S.point j).2.2 i3) else 0) (S.point j) := by
  have hwL : L.WF := by
    obtain ⟨_, b, c, d, e, f, g⟩ := hw.f0
    rw [hL]; exact ⟨hk, b, c, d, e, f, g⟩
  obtain ⟨a1, a2, a3, _⟩ := S.unravelQuad_spec hj
  have hev : (fun y => L.evaluate y (L.dims.ravelIndex c i1 i2 i3) comp)
      = fun y => if comp = c then basisValue L c y i1 i2 i3 else 0 :=
    funext fun y => L.evaluate_ravel hwL h y comp hcomp
  rw [hev]
  have hLk : L.dims.k = k := by rw [hL]
  have hc := h.comp_lt
  have hsz := h
  by_cases hcc : comp = c
  · simp only [if_pos hcc]
    have hpt := S.point_eq ht hj
    unfold Dims.InRange at hsz
    have hi : (dir = 0 → i1 < S.L0.dims.nr) ∧ (dir = 1 → i2 < S.L0.dims.nt) ∧
        (dir = 2 → i3 < S.L0.dims.nz) := by
      rw [hL] at hsz hc
      simp only [Dims.shape] at hc
      simp only [Dims.cshape, Dims.shape] at hsz
      unfold isDeriv at hder
      rcases hk with rfl | rfl | rfl | rfl | rfl <;> simp at hc hder <;>
        (try subst hc) <;> (try interval_cases c) <;> simp at hsz hder <;> omega
    unfold HasPartial
    have hcase : dir = 0 ∨ dir = 1 ∨ dir = 2 := by omega
    rcases hcase with rfl | rfl | rfl
    · have := hd.r i1 (hi.1 rfl) _ a1
      simp only [line, coord, basisValue, factor, hLk, hder, Bool.false_eq_true, if_false, if_true]
      rw [hpt] at *
      simp only [hL] at *
      exact (this.mul_const _).mul_const _
    · have := hd.t i2 (hi.2.1 rfl) _ a2
      simp only [line, coord, basisValue, factor, hLk, hder, Bool.false_eq_true, if_false, if_true]
      rw [hpt] at *
      simp only [hL] at *
      exact (this.const_mul _).mul_const _
    · have := hd.z i3 (hi.2.2 rfl) _ a3
      simp only [line, coord, basisValue, factor, hLk, hder, Bool.false_eq_true, if_false, if_true]
      rw [hpt] at *
      simp only [hL] at *
      exact this.const_mul _
  · simp only [if_neg hcc]
    unfold HasPartial
    have : line (fun _ : ℝ × ℝ × ℝ => (0 : ℝ)) (S.point j) dir = fun _ => 0 := by
      have hcase : dir = 0 ∨ dir = 1 ∨ dir = 2 := by omega
      rcases hcase with rfl | rfl | rfl <;> rfl
    rw [this]
    exact hasDerivAt_const _ _

end Aux

/-- The hypotheses on a sequence under which the tabulated derivatives are right: clamped radial
direction, periodic (or constant) angles, 1..10 quadrature points per element, meshes for which the
`isclose` guards are inactive. -/
structure Standard (ns ps : Nat × Nat × Nat) (q : Nat) (tt tz : String) (S : Seq ℝ) : Prop where
  built : Seq.mk? ns ps q ("clamped", tt, tz) = .ok S
  theta : tt = "periodic" ∨ tt = "constant"
  zeta : tz = "periodic" ∨ tz = "constant"
  q1 : 1 ≤ q
  q10 : q ≤ 10
  deg : ps.1 < ns.1
  fineR : ns.1 - ps.1 ≤ 99900
  fineT : ns.2.1 ≤ 49975
  fineZ : ns.2.2 ≤ 49975

section Main
variable {ns ps : Nat × Nat × Nat} {q : Nat} {tt tz : String} {S : Seq ℝ}

theorem Standard.facts (h : Standard ns ps q tt tz S) :
    S.WF ∧ S.IsTensor ∧ S.DerivOK ∧ S.Q.x.length = S.nq ∧ S.L0.dims.nr = ns.1 ∧ S.L0.dims.nt = ns.2.1 ∧
      S.L0.dims.nz = ns.2.2 := by
  have ht : S.IsTensor := Seq.rule_isTensor (Seq.mk?_inv h.built).2.2.2.2
  refine ⟨Seq.mk?_wf h.built, ht, Seq.derivOK h.built h.theta h.zeta h.q1 h.q10 h.deg h.fineR h.fineT
    h.fineZ, ?_, ?_, ?_, ?_⟩
  · have := (C14_tensor_rule_order (S.Q.xx, S.Q.xx) (S.Q.xy, S.Q.xy) (S.Q.xz, S.Q.xz) rfl rfl rfl).1
    rw [show S.Q.x = _ from ht]; exact this
  all_goals rw [(Form.mk?_inv (Seq.mk?_inv h.built).1).2.1]

/-- The partial derivatives of the basis functions of 0-forms in terms of the tables, for all sizes. -/
noncomputable def gradP (S : Seq ℝ) (x : ℝ × ℝ × ℝ) (u : Nat × Nat × Nat × Nat) (j dir : Nat) : ℝ :=
  (if dir = 0 then S.trueDiffR u.2.1 (S.unravelQuad j).1 else factor S.L0 (isDeriv 0 0 0) 0 x.1 u.2.1)
    * (if dir = 1 then S.trueDiffT u.2.2.1 (S.unravelQuad j).2.1 else factor S.L0 (isDeriv 0 0 1) 1 x.2.1 u.2.2.1)
    * (if dir = 2 then S.trueDiffZ u.2.2.2 (S.unravelQuad j).2.2 else factor S.L0 (isDeriv 0 0 2) 2 x.2.2 u.2.2.2)

theorem gradP_spec (h : Standard ns ps q tt tz S) (j : Nat) (x : ℝ × ℝ × ℝ)
    (hx : S.Q.x[j]? = some x) (i : Nat) (hi : i < S.L0.dims.n) (dir : Nat) (hdir : dir < 3) :
    HasPartial (fun y => S.L0.evaluate y i 0) dir (gradP S x (S.L0.dims.unravelIndex i) j dir) x := by
  obtain ⟨hw, ht, hd, hlen, er, et, ez⟩ := h.facts
  have hj : j < S.nq := by rw [← hlen]; exact (List.getElem?_eq_some_iff.mp hx).1
  have hp : S.point j = x := by unfold Seq.point; rw [List.getD_eq_getElem?_getD, hx]; rfl
  obtain ⟨h1, h2⟩ := S.L0.dims.unravelIndex_inRange hw.f0.k hi
  set u := S.L0.dims.unravelIndex i with hu
  have hk := hw.k0
  have hl : S.L0.dims.shape.length = 1 := by simp [Dims.shape, hk]
  have hc : u.1 = 0 := by have := h1.comp_lt; omega
  have hder : isDeriv 0 u.1 dir = false := by simp [isDeriv]
  have hL : S.L0 = { S.L0 with dims := { S.L0.dims with k := 0 } } := by rw [← hk]
  have hP := form_partial hw ht hd hj S.L0 0 hL (by simp [Dims.validDegree]) h1 0 (by omega) dir hdir hder
  rw [h2, hp, hc, if_pos rfl] at hP
  exact hP

/-- The axial difference of a spline that is not the first one does not depend on the wrap-around. -/
theorem diffZ_pos (S : Seq ℝ) {nt i j : Nat} (h : i ≠ 0) : S.diffZ nt i j = S.trueDiffZ i j := by
  unfold Seq.diffZ Seq.trueDiffZ
  rw [if_pos (by omega), if_pos (by omega)]

/-- The gradient tables are right where the side conditions hold. -/
theorem getter_gradient (h : Standard ns ps q tt tz S) (j : Nat) (x : ℝ × ℝ × ℝ)
    (hx : S.Q.x[j]? = some x) (i : Nat) (hi : i < S.L0.dims.n)
    (hlast : (S.L0.dims.unravelIndex i).2.1 = ns.1 - 1 ↔ (S.L0.dims.unravelIndex i).2.1 = ns.2.1 - 1)
    (hz : (S.L0.dims.unravelIndex i).2.2.2 = 0 → ns.2.2 ≤ ns.2.1) (dir : Nat) (hdir : dir < 3) :
    HasPartial (fun y => S.L0.evaluate y i 0) dir (S.getDLambda0 i j dir) x := by
  refine HasDerivAt.congr_deriv (gradP_spec h j x hx i hi dir hdir) ?_
  obtain ⟨hw, ht, hd, hlen, er, et, ez⟩ := h.facts
  have hj : j < S.nq := by rw [← hlen]; exact (List.getElem?_eq_some_iff.mp hx).1
  have hp : S.point j = x := by unfold Seq.point; rw [List.getD_eq_getElem?_getD, hx]; rfl
  obtain ⟨h1, h2⟩ := S.L0.dims.unravelIndex_inRange hw.f0.k hi
  unfold gradP
  set u := S.L0.dims.unravelIndex i with hu
  have hk := hw.k0
  have hl : S.L0.dims.shape.length = 1 := by simp [Dims.shape, hk]
  have hc : u.1 = 0 := by have := h1.comp_lt; omega
  obtain ⟨a1, a2, a3, _⟩ := S.unravelQuad_spec hj
  have hpt := S.point_eq ht hj
  rw [hp] at hpt
  obtain ⟨r1, r2, r3⟩ := h1
  rw [hc] at r1 r2 r3
  simp [Dims.cshape, Dims.shape, hk] at r1 r2 r3
  have hnt : 1 ≤ S.L0.dims.nt := by omega
  have eR := S.diffR_eq (nt := S.L0.dims.nt) (i := u.2.1) (j := (S.unravelQuad j).1) (by rw [er, et]; exact hlast) hnt
  have eZ : S.diffZ S.L0.dims.nt u.2.2.2 (S.unravelQuad j).2.2 = S.trueDiffZ u.2.2.2 (S.unravelQuad j).2.2 := by
    by_cases e : u.2.2.2 = 0
    · exact S.diffZ_eq hw (by rw [ez, et]; exact hz e) hd.dz
    · exact diffZ_pos S e
  unfold Seq.getDLambda0
  simp only [← hu, eR, eZ, S.diffT_eq]
  have hcase : dir = 0 ∨ dir = 1 ∨ dir = 2 := by omega
  rcases hcase with rfl | rfl | rfl <;>
    simp [factor, isDeriv, Seq.lamR_get hw r1 a1, Seq.lamT_get hw r2 a2, Seq.lamZ_get hw r3 a3, hpt]

/-- The partial derivatives of the components of the basis functions of 1-forms in terms of the tables. -/
noncomputable def curlP (S : Seq ℝ) (x : ℝ × ℝ × ℝ) (u : Nat × Nat × Nat × Nat) (j comp dir : Nat) : ℝ :=
  if comp = u.1 then
    (if dir = 0 then S.trueDiffR u.2.1 (S.unravelQuad j).1 else factor S.L1 (isDeriv 1 u.1 0) 0 x.1 u.2.1)
    * (if dir = 1 then S.trueDiffT u.2.2.1 (S.unravelQuad j).2.1 else factor S.L1 (isDeriv 1 u.1 1) 1 x.2.1 u.2.2.1)
    * (if dir = 2 then S.trueDiffZ u.2.2.2 (S.unravelQuad j).2.2 else factor S.L1 (isDeriv 1 u.1 2) 2 x.2.2 u.2.2.2) else 0

theorem curlP_spec (h : Standard ns ps q tt tz S) (j : Nat) (x : ℝ × ℝ × ℝ)
    (hx : S.Q.x[j]? = some x) (i : Nat) (hi : i < S.L1.dims.n) :
    ∀ comp < 3, ∀ dir < 3, comp ≠ dir →
      HasPartial (fun y => S.L1.evaluate y i comp) dir (curlP S x (S.L1.dims.unravelIndex i) j comp dir) x := by
  obtain ⟨hw, ht, hd, hlen, er, et, ez⟩ := h.facts
  have hj : j < S.nq := by rw [← hlen]; exact (List.getElem?_eq_some_iff.mp hx).1
  have hp : S.point j = x := by unfold Seq.point; rw [List.getD_eq_getElem?_getD, hx]; rfl
  obtain ⟨h1, h2⟩ := S.L1.dims.unravelIndex_inRange hw.f1.k hi
  unfold curlP
  set u := S.L1.dims.unravelIndex i with hu
  have hl : S.L1.dims.shape.length = 3 := by rw [hw.e1]; simp [Dims.shape]
  have hc := h1.comp_lt
  rw [hl] at hc
  have hP := form_partial hw ht hd hj S.L1 1 hw.e1 (by simp [Dims.validDegree]) h1
  rw [h2, hp] at hP
  intro comp hcomp dir hdir hne
  by_cases hcc : comp = u.1
  · have hder : isDeriv 1 u.1 dir = false := by
      rw [← hcc]; simp [isDeriv]; omega
    exact hP comp (by omega) dir hdir hder
  · simp only [if_neg hcc]
    have hev : (fun y => S.L1.evaluate y i comp) = fun _ => 0 := by
      funext y
      have := S.L1.evaluate_ravel hw.f1 h1 y comp (by omega)
      rw [h2, if_neg hcc] at this
      exact this
    rw [hev]
    unfold HasPartial
    have : line (fun _ : ℝ × ℝ × ℝ => (0 : ℝ)) x dir = fun _ => 0 := by
      have hcase : dir = 0 ∨ dir = 1 ∨ dir = 2 := by omega
      rcases hcase with rfl | rfl | rfl <;> rfl
    rw [this]
    exact hasDerivAt_const _ _

/-- The curl tables are right where the side conditions hold. -/
theorem getter_curl (h : Standard ns ps q tt tz S) (j : Nat) (x : ℝ × ℝ × ℝ)
    (hx : S.Q.x[j]? = some x) (i : Nat) (hi : i < S.L1.dims.n)
    (hlast : (S.L1.dims.unravelIndex i).1 ≠ 0 →
      ((S.L1.dims.unravelIndex i).2.1 = ns.1 - 1 ↔ (S.L1.dims.unravelIndex i).2.1 = ns.2.1 - 1))
    (hz : (S.L1.dims.unravelIndex i).1 ≠ 2 → (S.L1.dims.unravelIndex i).2.2.2 = 0 → ns.2.2 ≤ ns.2.1) :
    ∃ P : Nat → Nat → ℝ,
      (∀ comp < 3, ∀ dir < 3, comp ≠ dir →
        HasPartial (fun y => S.L1.evaluate y i comp) dir (P comp dir) x) ∧
      S.getDLambda1 i j 0 = P 2 1 - P 1 2 ∧
      S.getDLambda1 i j 1 = P 0 2 - P 2 0 ∧
      S.getDLambda1 i j 2 = P 1 0 - P 0 1 := by
  refine ⟨_, curlP_spec h j x hx i hi, ?_⟩
  obtain ⟨hw, ht, hd, hlen, er, et, ez⟩ := h.facts
  have hj : j < S.nq := by rw [← hlen]; exact (List.getElem?_eq_some_iff.mp hx).1
  have hp : S.point j = x := by unfold Seq.point; rw [List.getD_eq_getElem?_getD, hx]; rfl
  obtain ⟨h1, h2⟩ := S.L1.dims.unravelIndex_inRange hw.f1.k hi
  unfold curlP
  set u := S.L1.dims.unravelIndex i with hu
  have hl : S.L1.dims.shape.length = 3 := by rw [hw.e1]; simp [Dims.shape]
  have hc := h1.comp_lt
  rw [hl] at hc
  obtain ⟨a1, a2, a3, _⟩ := S.unravelQuad_spec hj
  have hpt := S.point_eq ht hj
  rw [hp] at hpt
  obtain ⟨r1, r2, r3⟩ := h1
  have hnt1 : S.L1.dims.nt = S.L0.dims.nt := by rw [hw.e1]
  have hnt : 1 ≤ S.L0.dims.nt := by
    rw [hw.e1] at r2
    have := hd.dt
    have hcase : u.1 = 0 ∨ u.1 = 1 ∨ u.1 = 2 := by omega
    rcases hcase with hc | hc | hc <;> simp [hc, Dims.cshape, Dims.shape] at r2 <;> omega
  have eR : u.1 ≠ 0 → S.diffR S.L0.dims.nt u.2.1 (S.unravelQuad j).1 = S.trueDiffR u.2.1 (S.unravelQuad j).1 :=
    fun e => S.diffR_eq (by rw [er, et]; exact hlast e) hnt
  have eZ : u.1 ≠ 2 → S.diffZ S.L0.dims.nt u.2.2.2 (S.unravelQuad j).2.2 = S.trueDiffZ u.2.2.2 (S.unravelQuad j).2.2 := by
    intro c
    by_cases e : u.2.2.2 = 0
    · exact S.diffZ_eq hw (by rw [ez, et]; exact hz c e) hd.dz
    · exact diffZ_pos S e
  unfold Seq.getDLambda1
  simp only [← hu, hnt1, S.diffT_eq]
  rw [hw.e1] at *
  have hcase : u.1 = 0 ∨ u.1 = 1 ∨ u.1 = 2 := by omega
  rcases hcase with hc | hc | hc <;> rw [hc] at r1 r2 r3 <;>
    simp [Dims.cshape, Dims.shape] at r1 r2 r3
  · simp [hc, factor, isDeriv, eZ (by omega), Seq.dlamR_get hw r1 a1, Seq.lamT_get hw r2 a2, Seq.lamZ_get hw r3 a3, hpt]
  · simp [hc, factor, isDeriv, eR (by omega), eZ (by omega), Seq.lamR_get hw r1 a1, Seq.dlamT_get hw r2 a2, Seq.lamZ_get hw r3 a3, hpt]
  · simp [hc, factor, isDeriv, eR (by omega), Seq.lamR_get hw r1 a1, Seq.lamT_get hw r2 a2, Seq.dlamZ_get hw r3 a3, hpt]

/-- The diagonal partial derivatives of the components of the basis functions of 2-forms in terms of the tables. -/
noncomputable def divP (S : Seq ℝ) (x : ℝ × ℝ × ℝ) (u : Nat × Nat × Nat × Nat) (j dir : Nat) : ℝ :=
  if dir = u.1 then
    (if dir = 0 then S.trueDiffR u.2.1 (S.unravelQuad j).1 else factor S.L2 (isDeriv 2 u.1 0) 0 x.1 u.2.1)
    * (if dir = 1 then S.trueDiffT u.2.2.1 (S.unravelQuad j).2.1 else factor S.L2 (isDeriv 2 u.1 1) 1 x.2.1 u.2.2.1)
    * (if dir = 2 then S.trueDiffZ u.2.2.2 (S.unravelQuad j).2.2 else factor S.L2 (isDeriv 2 u.1 2) 2 x.2.2 u.2.2.2) else 0

theorem divP_spec (h : Standard ns ps q tt tz S) (j : Nat) (x : ℝ × ℝ × ℝ)
    (hx : S.Q.x[j]? = some x) (i : Nat) (hi : i < S.L2.dims.n) :
    ∀ comp < 3, HasPartial (fun y => S.L2.evaluate y i comp) comp (divP S x (S.L2.dims.unravelIndex i) j comp) x := by
  obtain ⟨hw, ht, hd, hlen, er, et, ez⟩ := h.facts
  have hj : j < S.nq := by rw [← hlen]; exact (List.getElem?_eq_some_iff.mp hx).1
  have hp : S.point j = x := by unfold Seq.point; rw [List.getD_eq_getElem?_getD, hx]; rfl
  obtain ⟨h1, h2⟩ := S.L2.dims.unravelIndex_inRange hw.f2.k hi
  unfold divP
  set u := S.L2.dims.unravelIndex i with hu
  have hl : S.L2.dims.shape.length = 3 := by rw [hw.e2]; simp [Dims.shape]
  have hc := h1.comp_lt
  rw [hl] at hc
  have hP := form_partial hw ht hd hj S.L2 2 hw.e2 (by simp [Dims.validDegree]) h1
  rw [h2, hp] at hP
  intro comp hcomp
  by_cases hcc : comp = u.1
  · have hder : isDeriv 2 u.1 comp = false := by
      rw [← hcc]; simp [isDeriv]
    exact hP comp (by omega) comp hcomp hder
  · simp only [if_neg hcc]
    have hev : (fun y => S.L2.evaluate y i comp) = fun _ => 0 := by
      funext y
      have := S.L2.evaluate_ravel hw.f2 h1 y comp (by omega)
      rw [h2, if_neg hcc] at this
      exact this
    rw [hev]
    unfold HasPartial
    have : line (fun _ : ℝ × ℝ × ℝ => (0 : ℝ)) x comp = fun _ => 0 := by
      have hcase : comp = 0 ∨ comp = 1 ∨ comp = 2 := by omega
      rcases hcase with rfl | rfl | rfl <;> rfl
    rw [this]
    exact hasDerivAt_const _ _

/-- The divergence table is right where the side conditions hold. -/
theorem getter_divergence (h : Standard ns ps q tt tz S) (j : Nat) (x : ℝ × ℝ × ℝ)
    (hx : S.Q.x[j]? = some x) (i : Nat) (hi : i < S.L2.dims.n)
    (hlast : (S.L2.dims.unravelIndex i).1 = 0 →
      ((S.L2.dims.unravelIndex i).2.1 = ns.1 - 1 ↔ (S.L2.dims.unravelIndex i).2.1 = ns.2.1 - 1))
    (hz : (S.L2.dims.unravelIndex i).1 = 2 → (S.L2.dims.unravelIndex i).2.2.2 = 0 → ns.2.2 ≤ ns.2.1) :
    ∃ P : Nat → ℝ, (∀ comp < 3, HasPartial (fun y => S.L2.evaluate y i comp) comp (P comp) x) ∧
      S.getDLambda2 i j 0 = P 0 + P 1 + P 2 := by
  refine ⟨_, divP_spec h j x hx i hi, ?_⟩
  obtain ⟨hw, ht, hd, hlen, er, et, ez⟩ := h.facts
  have hj : j < S.nq := by rw [← hlen]; exact (List.getElem?_eq_some_iff.mp hx).1
  have hp : S.point j = x := by unfold Seq.point; rw [List.getD_eq_getElem?_getD, hx]; rfl
  obtain ⟨h1, h2⟩ := S.L2.dims.unravelIndex_inRange hw.f2.k hi
  unfold divP
  set u := S.L2.dims.unravelIndex i with hu
  have hl : S.L2.dims.shape.length = 3 := by rw [hw.e2]; simp [Dims.shape]
  have hc := h1.comp_lt
  rw [hl] at hc
  obtain ⟨a1, a2, a3, _⟩ := S.unravelQuad_spec hj
  have hpt := S.point_eq ht hj
  rw [hp] at hpt
  obtain ⟨r1, r2, r3⟩ := h1
  have hnt1 : S.L2.dims.nt = S.L0.dims.nt := by rw [hw.e2]
  have hnt : 1 ≤ S.L0.dims.nt := by
    rw [hw.e2] at r2
    have := hd.dt
    have hcase : u.1 = 0 ∨ u.1 = 1 ∨ u.1 = 2 := by omega
    rcases hcase with hc | hc | hc <;> simp [hc, Dims.cshape, Dims.shape] at r2 <;> omega
  have eR : u.1 = 0 → S.diffR S.L0.dims.nt u.2.1 (S.unravelQuad j).1 = S.trueDiffR u.2.1 (S.unravelQuad j).1 :=
    fun e => S.diffR_eq (by rw [er, et]; exact hlast e) hnt
  have eZ : u.1 = 2 → S.diffZ S.L0.dims.nt u.2.2.2 (S.unravelQuad j).2.2 = S.trueDiffZ u.2.2.2 (S.unravelQuad j).2.2 := by
    intro c
    by_cases e : u.2.2.2 = 0
    · exact S.diffZ_eq hw (by rw [ez, et]; exact hz c e) hd.dz
    · exact diffZ_pos S e
  unfold Seq.getDLambda2
  simp only [← hu, hnt1, S.diffT_eq]
  rw [hw.e2] at *
  have hcase : u.1 = 0 ∨ u.1 = 1 ∨ u.1 = 2 := by omega
  rcases hcase with hc | hc | hc <;> rw [hc] at r1 r2 r3 <;>
    simp [Dims.cshape, Dims.shape] at r1 r2 r3
  · simp [hc, factor, isDeriv, eR hc, Seq.dlamT_get hw r2 a2, Seq.dlamZ_get hw r3 a3, hpt]
  · simp [hc, factor, isDeriv, Seq.dlamR_get hw r1 a1, Seq.dlamZ_get hw r3 a3, hpt]
  · simp [hc, factor, isDeriv, eZ hc, Seq.dlamR_get hw r1 a1, Seq.dlamT_get hw r2 a2, hpt]

end Main

end Mrx.Props
