import Verif.Props.Pointwise
import Verif.Props.FormsDerivNeg

/-!
# C20: the exact domain of the derivative tables
-/

set_option linter.unusedSectionVars false
set_option linter.unusedVariables false

namespace Mrx.Props
open Finset Spec Matrix DeRham Quad

theorem HasPartial.unique {f : ℝ × ℝ × ℝ → ℝ} {dir : Nat} {v w : ℝ} {x : ℝ × ℝ × ℝ} (h : HasPartial f dir v x) (h' : HasPartial f dir w x) :
    v = w := HasDerivAt.unique h h'

/-- A sequence that is clamped radially and periodic or constant in the angles, whose quadrature rules resolve the splines. -/
structure Resolved (ns ps : Nat × Nat × Nat) (q : Nat) (tt tz : String) (S : Seq ℝ) : Prop where
  built : Seq.mk? ns ps q ("clamped", tt, tz) = .ok S
  q10 : q ≤ 10
  r : DirOK ns.1 ps.1 q "clamped"
  t : DirOK ns.2.1 ps.2.1 q tt
  z : DirOK ns.2.2 ps.2.2 q tz
  theta : tt ≠ "clamped"
  zeta : tz ≠ "clamped"

section
variable {ns ps : Nat × Nat × Nat} {q : Nat} {tt tz : String} {S : Seq ℝ}

theorem Resolved.standard (h : Resolved ns ps q tt tz S) : Standard ns ps q tt tz S := by
  have hr := h.r
  have ht := h.t
  have hz := h.z
  simp only [DirOK, show ¬ ("clamped" = "periodic") by decide, show ¬ ("clamped" = "constant") by decide, false_and, or_false,
    true_and, h.theta, h.zeta, false_or] at hr ht hz
  refine ⟨h.built, ?_, ?_, by omega, h.q10, hr.2.1, hr.2.2.1, by rcases ht with a | a <;> omega, by rcases hz with a | a <;> omega⟩
  · rcases ht with a | a
    · exact Or.inl a.1
    · exact Or.inr a.1
  · rcases hz with a | a
    · exact Or.inl a.1
    · exact Or.inr a.1

theorem Resolved.quad (h : Resolved ns ps q tt tz S) : S.QuadOK := quadOK h.built h.q10 h.r h.t h.z

theorem Resolved.sizes (h : Resolved ns ps q tt tz S) : 2 ≤ ns.1 ∧ 1 ≤ ns.2.1 ∧ 1 ≤ ns.2.2 := by
  have hr := h.r
  have ht := h.t
  have hz := h.z
  unfold DirOK at hr ht hz
  simp only [show ¬ ("clamped" = "periodic") by decide, show ¬ ("clamped" = "constant") by decide, false_and, or_false, true_and] at hr
  refine ⟨by omega, by omega, by omega⟩

/-- A unisolvent family contains no function that vanishes at all points. -/
theorem unisolvent_ne {n : Nat} {b : ℝ → Nat → ℝ} {xs : List ℝ} (h : Unisolvent n b xs) {i : Nat} (hi : i < n) :
    ∃ a < xs.length, b (xs.getD a 0) i ≠ 0 := by
  by_contra hc
  push Not at hc
  have := h (fun k => if k = i then 1 else 0) (fun x hx => by
    obtain ⟨a, ha, rfl⟩ := List.mem_iff_getElem.mp hx
    have := hc a ha
    rw [List.getD_eq_getElem?_getD, List.getElem?_eq_getElem ha] at this
    simp only [ite_mul, one_mul, zero_mul]
    rw [sum_ite_eq', if_pos (mem_range.mpr hi)]
    exact this) i hi
  simp at this

/-- Two functions of a unisolvent family differ at some point. -/
theorem unisolvent_sep {n : Nat} {b : ℝ → Nat → ℝ} {xs : List ℝ} (h : Unisolvent n b xs) {i k : Nat} (hi : i < n) (hk : k < n) (hik : i ≠ k) :
    ∃ a < xs.length, b (xs.getD a 0) i ≠ b (xs.getD a 0) k := by
  by_contra hc
  push Not at hc
  have := h (fun m => (if m = i then 1 else 0) - (if m = k then 1 else 0)) (fun x hx => by
    obtain ⟨a, ha, rfl⟩ := List.mem_iff_getElem.mp hx
    have := hc a ha
    rw [List.getD_eq_getElem?_getD, List.getElem?_eq_getElem ha] at this
    simp only [sub_mul, ite_mul, one_mul, zero_mul]
    rw [sum_sub_distrib, sum_ite_eq', sum_ite_eq', if_pos (mem_range.mpr hi), if_pos (mem_range.mpr hk)]
    exact sub_eq_zero.mpr this) i hi
  simp [hik] at this

/-- Every triple of one-dimensional points is a quadrature point. -/
theorem exists_quad (S : Seq ℝ) {a b c : Nat} (ha : a < S.Q.xx.length) (hb : b < S.Q.xy.length) (hc : c < S.Q.xz.length) :
    ∃ j < S.nq, S.unravelQuad j = (a, b, c) := by
  refine ⟨(b * S.Q.xx.length + a) * S.Q.xz.length + c, ?_, ?_⟩
  · unfold Seq.nq
    have h1 : b * S.Q.xx.length + a + 1 ≤ S.Q.xy.length * S.Q.xx.length := by
      have := Nat.mul_le_mul_right S.Q.xx.length (show b + 1 ≤ S.Q.xy.length by omega)
      rw [Nat.add_mul, Nat.one_mul] at this; omega
    have h2 := Nat.mul_le_mul_right S.Q.xz.length h1
    rw [Nat.add_mul, Nat.one_mul] at h2
    omega
  · unfold Seq.unravelQuad
    rw [Jax.unravelIndex3_flat hb ha hc]

/-- The radial differences are right exactly if the last radial index is `nt - 1` or neither. -/
theorem diffR_iff (h : Resolved ns ps q tt tz S) {i : Nat} (hi : i < S.L0.dims.nr) :
    (∀ a < S.Q.xx.length, S.diffR S.L0.dims.nt i a = S.trueDiffR i a) ↔ (i = ns.1 - 1 ↔ i = ns.2.1 - 1) := by
  obtain ⟨hw, ht, hd, hlen, er, et, ez⟩ := h.standard.facts
  obtain ⟨n1, n2, n3⟩ := h.sizes
  have hu := h.quad.dr
  have edr := hd.dr
  constructor
  · intro H
    by_contra hne
    by_cases e : i = ns.1 - 1
    · have e' : i ≠ ns.2.1 - 1 := by tauto
      obtain ⟨a, ha, hn⟩ := unisolvent_ne hu (i := S.L0.dims.dr - 1) (by omega)
      apply hn
      have := H a ha
      unfold Seq.diffR Seq.trueDiffR at this
      rw [if_neg (by omega), if_pos (by omega), if_neg (by omega), if_pos (by omega)] at this
      have hg : S.dlamR.get i a = S.dlamR.get (S.L0.dims.dr - 1) a := by
        unfold Seq.dlamR Table.get
        simp only [hw.f0.dr]
        rw [show min i (S.L0.dims.dr - 1) = min (S.L0.dims.dr - 1) (S.L0.dims.dr - 1) by omega]
      rw [hg, Seq.dlamR_get hw (show S.L0.dims.dr - 1 < S.L0.dims.dr by omega) ha] at this
      linarith
    · have e' : i = ns.2.1 - 1 := by tauto
      obtain ⟨a, ha, hn⟩ := unisolvent_ne hu (i := i) (by omega)
      apply hn
      have := H a ha
      unfold Seq.diffR Seq.trueDiffR at this
      rw [if_pos (by omega), if_neg (by omega : ¬ i = S.L0.dims.nr - 1)] at this
      rw [Seq.dlamR_get hw (show i < S.L0.dims.dr by omega) ha] at this
      have e2 : (0 < i) ↔ ¬ i = 0 := by omega
      simp only [e2, ite_not] at this
      linarith
  · intro H a _
    exact S.diffR_eq (by rw [er, et]; exact H) (by omega)

/-- The axial differences are right exactly if the wrap-around finds the last spline. -/
theorem diffZ_iff (h : Resolved ns ps q tt tz S) {i : Nat} (hi : i < S.L0.dims.nz) :
    (∀ a < S.Q.xz.length, S.diffZ S.L0.dims.nt i a = S.trueDiffZ i a) ↔ (i = 0 → ns.2.2 ≤ ns.2.1) := by
  obtain ⟨hw, ht, hd, hlen, er, et, ez⟩ := h.standard.facts
  obtain ⟨n1, n2, n3⟩ := h.sizes
  have hu := h.quad.dz
  have edz := hd.dz
  constructor
  · rintro H rfl
    by_contra hne
    obtain ⟨a, ha, hn⟩ := unisolvent_sep hu (i := S.L0.dims.nt - 1) (k := S.L0.dims.nz - 1) (by omega) (by omega) (by omega)
    apply hn
    have := H a ha
    unfold Seq.diffZ Seq.trueDiffZ at this
    simp only [Nat.lt_irrefl, if_false] at this
    rw [Seq.dlamZ_get hw (show S.L0.dims.nt - 1 < S.L0.dims.dz by omega) ha,
      Seq.dlamZ_get hw (show S.L0.dims.nz - 1 < S.L0.dims.dz by omega) ha] at this
    linarith
  · intro H a _
    by_cases e : i = 0
    · exact S.diffZ_eq hw (by rw [ez, et]; exact H e) hd.dz
    · exact diffZ_pos S e

/-- No tabulated basis function vanishes at all points. -/
theorem tables_ne (h : Resolved ns ps q tt tz S) :
    (∀ i < S.L0.dims.nr, ∃ a < S.Q.xx.length, S.lamR.get i a ≠ 0) ∧ (∀ i < S.L0.dims.nt, ∃ a < S.Q.xy.length, S.lamT.get i a ≠ 0) ∧
    (∀ i < S.L0.dims.nz, ∃ a < S.Q.xz.length, S.lamZ.get i a ≠ 0) ∧ (∀ i < S.L0.dims.dr, ∃ a < S.Q.xx.length, S.dlamR.get i a ≠ 0) ∧
    (∀ i < S.L0.dims.dt, ∃ a < S.Q.xy.length, S.dlamT.get i a ≠ 0) ∧ (∀ i < S.L0.dims.dz, ∃ a < S.Q.xz.length, S.dlamZ.get i a ≠ 0) := by
  obtain ⟨hw, ht, hd, hlen, er, et, ez⟩ := h.standard.facts
  have hq := h.quad
  refine ⟨fun i hi => ?_, fun i hi => ?_, fun i hi => ?_, fun i hi => ?_, fun i hi => ?_, fun i hi => ?_⟩
  · obtain ⟨a, ha, hn⟩ := unisolvent_ne hq.r hi
    exact ⟨a, ha, by rw [Seq.lamR_get hw hi ha]; exact hn⟩
  · obtain ⟨a, ha, hn⟩ := unisolvent_ne hq.t hi
    exact ⟨a, ha, by rw [Seq.lamT_get hw hi ha]; exact hn⟩
  · obtain ⟨a, ha, hn⟩ := unisolvent_ne hq.z hi
    exact ⟨a, ha, by rw [Seq.lamZ_get hw hi ha]; exact hn⟩
  · obtain ⟨a, ha, hn⟩ := unisolvent_ne hq.dr hi
    exact ⟨a, ha, by rw [Seq.dlamR_get hw hi ha]; exact hn⟩
  · obtain ⟨a, ha, hn⟩ := unisolvent_ne hq.dt hi
    exact ⟨a, ha, by rw [Seq.dlamT_get hw hi ha]; exact hn⟩
  · obtain ⟨a, ha, hn⟩ := unisolvent_ne hq.dz hi
    exact ⟨a, ha, by rw [Seq.dlamZ_get hw hi ha]; exact hn⟩

theorem quad_at (h : Resolved ns ps q tt tz S) {j : Nat} (hj : j < S.nq) : S.Q.x[j]? = some (S.point j) := by
  obtain ⟨hw, ht, hd, hlen, er, et, ez⟩ := h.standard.facts
  unfold Seq.point
  rw [List.getD_eq_getElem?_getD, List.getElem?_eq_getElem (by rw [hlen]; exact hj)]; rfl

/-- **C20**, 0-forms, for every basis function of every resolution: the three tabulated components are the partial derivatives of basis
function `i` at all quadrature points, exactly if its radial index is the last one (`nr - 1`) and `nt - 1`, or neither, and, should it be
the first axial spline, there are at most as many axial as poloidal splines. -/
theorem C20_gradient_iff (h : Resolved ns ps q tt tz S) (i : Nat) (hi : i < S.L0.dims.n) :
    (∀ j x, S.Q.x[j]? = some x → ∀ dir < 3, HasPartial (fun y => S.L0.evaluate y i 0) dir (S.getDLambda0 i j dir) x) ↔
    ((S.L0.dims.unravelIndex i).2.1 = ns.1 - 1 ↔ (S.L0.dims.unravelIndex i).2.1 = ns.2.1 - 1) ∧
      ((S.L0.dims.unravelIndex i).2.2.2 = 0 → ns.2.2 ≤ ns.2.1) := by
  constructor
  · intro H
    obtain ⟨hw, ht, hd, hlen, er, et, ez⟩ := h.standard.facts
    obtain ⟨tr, tth, tz', _⟩ := tables_ne h
    obtain ⟨h1, h2⟩ := S.L0.dims.unravelIndex_inRange hw.f0.k hi
    have hc : (S.L0.dims.unravelIndex i).1 = 0 := by
      have := h1.comp_lt; rw [show S.L0.dims.shape.length = 1 by simp [Dims.shape, hw.k0]] at this; omega
    have hgen : ∀ j < S.nq, ∀ dir < 3, S.getDLambda0 i j dir = gradP S (S.point j) (S.L0.dims.unravelIndex i) j dir := fun j hj dir hdir =>
      HasPartial.unique (H j _ (quad_at h hj) dir hdir) (gradP_spec h.standard j _ (quad_at h hj) i hi dir hdir)
    unfold gradP Seq.getDLambda0 at hgen
    generalize S.L0.dims.unravelIndex i = u at *
    obtain ⟨r1, r2, r3⟩ := h1
    rw [hc] at r1 r2 r3
    simp [Dims.cshape, Dims.shape, hw.k0] at r1 r2 r3
    obtain ⟨a, ha, na⟩ := tr _ r1
    obtain ⟨b, hb, nb⟩ := tth _ r2
    obtain ⟨c, hc', nc⟩ := tz' _ r3
    constructor
    · rw [← diffR_iff h r1]
      intro a ha
      obtain ⟨j, hj, e⟩ := exists_quad S ha hb hc'
      have := hgen j hj 0 (by omega)
      rw [S.point_eq ht hj] at this
      simp only [e] at this
      simp [factor, isDeriv, -List.getD_eq_getElem?_getD] at this
      rw [← Seq.lamT_get hw r2 hb, ← Seq.lamZ_get hw r3 hc'] at this
      exact mul_right_cancel₀ nb (mul_right_cancel₀ nc this)
    · rw [← diffZ_iff h r3]
      intro c hc'
      obtain ⟨j, hj, e⟩ := exists_quad S ha hb hc'
      have := hgen j hj 2 (by omega)
      rw [S.point_eq ht hj] at this
      simp only [e] at this
      simp [factor, isDeriv, -List.getD_eq_getElem?_getD] at this
      rw [← Seq.lamR_get hw r1 ha, ← Seq.lamT_get hw r2 hb] at this
      exact mul_left_cancel₀ (mul_ne_zero na nb) this
  · rintro ⟨H1, H2⟩ j x hx dir hdir
    exact getter_gradient h.standard j x hx i hi H1 H2 dir hdir

/-- The sequence of the cases: 6 × 5 × 4 splines. -/
theorem case_resolved : ∃ S : Seq ℝ, Resolved (6, 5, 4) (3, 2, 1) 4 "periodic" "periodic" S ∧ 100 < S.L0.dims.n ∧ 100 < S.L1.dims.n ∧ 100 < S.L2.dims.n := by
  refine ⟨_, ⟨rfl, by norm_num, by unfold DirOK; norm_num, by unfold DirOK; norm_num, by unfold DirOK; norm_num, by decide, by decide⟩, ?_, ?_, ?_⟩
  · show 100 < 6 * 5 * 4; norm_num
  · show 100 < 5 * 5 * 4 + (6 * 5 * 4 + 6 * 5 * 4); norm_num
  · show 100 < 6 * 5 * 4 + (5 * 5 * 4 + 5 * 5 * 4); norm_num

/-- Case: basis function 100 of 6 × 5 × 4 splines. -/
example := C20_gradient_iff case_resolved.choose_spec.1 100 case_resolved.choose_spec.2.1

/-- **C20**, 1-forms, for every basis function of every resolution: the tabulated values are the curl exactly if, for poloidal and axial
components, the radial index is the last one and `nt - 1`, or neither, and, for the first axial index of radial and poloidal components,
there are at most as many axial as poloidal splines. -/
theorem C20_curl_iff (h : Resolved ns ps q tt tz S) (i : Nat) (hi : i < S.L1.dims.n) :
    (∀ j x, S.Q.x[j]? = some x → ∃ P : Nat → Nat → ℝ,
      (∀ comp < 3, ∀ dir < 3, comp ≠ dir → HasPartial (fun y => S.L1.evaluate y i comp) dir (P comp dir) x) ∧
      S.getDLambda1 i j 0 = P 2 1 - P 1 2 ∧ S.getDLambda1 i j 1 = P 0 2 - P 2 0 ∧ S.getDLambda1 i j 2 = P 1 0 - P 0 1) ↔
    ((S.L1.dims.unravelIndex i).1 ≠ 0 → ((S.L1.dims.unravelIndex i).2.1 = ns.1 - 1 ↔ (S.L1.dims.unravelIndex i).2.1 = ns.2.1 - 1)) ∧
      ((S.L1.dims.unravelIndex i).1 ≠ 2 → (S.L1.dims.unravelIndex i).2.2.2 = 0 → ns.2.2 ≤ ns.2.1) := by
  constructor
  · intro H
    obtain ⟨hw, ht, hd, hlen, er, et, ez⟩ := h.standard.facts
    obtain ⟨tr, tth, tz', dr, dt, dz⟩ := tables_ne h
    obtain ⟨h1, h2⟩ := S.L1.dims.unravelIndex_inRange hw.f1.k hi
    have hc : (S.L1.dims.unravelIndex i).1 < 3 := by
      have := h1.comp_lt; rw [show S.L1.dims.shape.length = 3 by rw [hw.e1]; simp [Dims.shape]] at this; exact this
    have hgen : ∀ j < S.nq, S.getDLambda1 i j 0 = curlP S (S.point j) (S.L1.dims.unravelIndex i) j 2 1 - curlP S (S.point j) (S.L1.dims.unravelIndex i) j 1 2 ∧
        S.getDLambda1 i j 1 = curlP S (S.point j) (S.L1.dims.unravelIndex i) j 0 2 - curlP S (S.point j) (S.L1.dims.unravelIndex i) j 2 0 ∧
        S.getDLambda1 i j 2 = curlP S (S.point j) (S.L1.dims.unravelIndex i) j 1 0 - curlP S (S.point j) (S.L1.dims.unravelIndex i) j 0 1 := by
      intro j hj
      obtain ⟨P, hP, e0, e1, e2⟩ := H j _ (quad_at h hj)
      have u : ∀ comp < 3, ∀ dir < 3, comp ≠ dir → P comp dir = curlP S (S.point j) (S.L1.dims.unravelIndex i) j comp dir :=
        fun comp hcomp dir hdir hne => HasPartial.unique (hP comp hcomp dir hdir hne)
          (curlP_spec h.standard j _ (quad_at h hj) i hi comp hcomp dir hdir hne)
      rw [e0, e1, e2, u 2 (by omega) 1 (by omega) (by omega), u 1 (by omega) 2 (by omega) (by omega), u 0 (by omega) 2 (by omega) (by omega),
        u 2 (by omega) 0 (by omega) (by omega), u 1 (by omega) 0 (by omega) (by omega), u 0 (by omega) 1 (by omega) (by omega)]
      exact ⟨rfl, rfl, rfl⟩
    have hnt1 : S.L1.dims.nt = S.L0.dims.nt := by rw [hw.e1]
    unfold curlP Seq.getDLambda1 at hgen
    rw [hnt1] at hgen
    generalize S.L1.dims.unravelIndex i = u at *
    rw [hw.e1] at hgen h1
    obtain ⟨r1, r2, r3⟩ := h1
    have hcase : u.1 = 0 ∨ u.1 = 1 ∨ u.1 = 2 := by omega
    rcases hcase with hc | hc | hc <;> rw [hc] at r1 r2 r3 <;> simp [Dims.cshape, Dims.shape] at r1 r2 r3
    · refine ⟨fun e => absurd hc e, fun _ => ?_⟩
      obtain ⟨a, ha, na⟩ := dr _ r1
      obtain ⟨b, hb, nb⟩ := tth _ r2
      rw [← diffZ_iff h r3]
      intro c hc'
      obtain ⟨j, hj, e⟩ := exists_quad S ha hb hc'
      have := (hgen j hj).2.1
      rw [S.point_eq ht hj] at this
      simp only [e] at this
      simp [hc, factor, isDeriv, -List.getD_eq_getElem?_getD] at this
      rw [← Seq.dlamR_get hw r1 ha, ← Seq.lamT_get hw r2 hb] at this
      exact mul_left_cancel₀ (mul_ne_zero na nb) this
    · obtain ⟨a, ha, na⟩ := tr _ r1
      obtain ⟨b, hb, nb⟩ := dt _ r2
      obtain ⟨c, hc', nc⟩ := tz' _ r3
      refine ⟨fun _ => ?_, fun _ => ?_⟩
      · rw [← diffR_iff h r1]
        intro a ha
        obtain ⟨j, hj, e⟩ := exists_quad S ha hb hc'
        have := (hgen j hj).2.2
        rw [S.point_eq ht hj] at this
        simp only [e] at this
        simp [hc, factor, isDeriv, -List.getD_eq_getElem?_getD, -mul_eq_mul_right_iff] at this
        rw [← Seq.dlamT_get hw r2 hb, ← Seq.lamZ_get hw r3 hc'] at this
        exact mul_right_cancel₀ nb (mul_right_cancel₀ nc this)
      · rw [← diffZ_iff h r3]
        intro c hc'
        obtain ⟨j, hj, e⟩ := exists_quad S ha hb hc'
        have := (hgen j hj).1
        rw [S.point_eq ht hj] at this
        simp only [e] at this
        simp [hc, factor, isDeriv, -List.getD_eq_getElem?_getD, -mul_eq_mul_left_iff] at this
        rw [← Seq.lamR_get hw r1 ha, ← Seq.dlamT_get hw r2 hb] at this
        exact mul_left_cancel₀ (mul_ne_zero na nb) this
    · refine ⟨fun _ => ?_, fun e => absurd hc e⟩
      obtain ⟨b, hb, nb⟩ := tth _ r2
      obtain ⟨c, hc', nc⟩ := dz _ r3
      rw [← diffR_iff h r1]
      intro a ha
      obtain ⟨j, hj, e⟩ := exists_quad S ha hb hc'
      have := (hgen j hj).2.1
      rw [S.point_eq ht hj] at this
      simp only [e] at this
      simp [hc, factor, isDeriv, -List.getD_eq_getElem?_getD, -mul_eq_mul_right_iff] at this
      rw [← Seq.lamT_get hw r2 hb, ← Seq.dlamZ_get hw r3 hc'] at this
      exact mul_right_cancel₀ nb (mul_right_cancel₀ nc this)
  · rintro ⟨H1, H2⟩ j x hx
    exact getter_curl h.standard j x hx i hi H1 H2

/-- Case: the same splines. -/
example := C20_curl_iff case_resolved.choose_spec.1 100 case_resolved.choose_spec.2.2.1

/-- **C20**, 2-forms, for every basis function of every resolution: the tabulated value is the divergence exactly if, for a radial
component, the radial index is the last one and `nt - 1`, or neither, and, for the first axial index of an axial component, there are at
most as many axial as poloidal splines. -/
theorem C20_divergence_iff (h : Resolved ns ps q tt tz S) (i : Nat) (hi : i < S.L2.dims.n) :
    (∀ j x, S.Q.x[j]? = some x → ∃ P : Nat → ℝ, (∀ comp < 3, HasPartial (fun y => S.L2.evaluate y i comp) comp (P comp) x) ∧
      S.getDLambda2 i j 0 = P 0 + P 1 + P 2) ↔
    ((S.L2.dims.unravelIndex i).1 = 0 → ((S.L2.dims.unravelIndex i).2.1 = ns.1 - 1 ↔ (S.L2.dims.unravelIndex i).2.1 = ns.2.1 - 1)) ∧
      ((S.L2.dims.unravelIndex i).1 = 2 → (S.L2.dims.unravelIndex i).2.2.2 = 0 → ns.2.2 ≤ ns.2.1) := by
  constructor
  · intro H
    obtain ⟨hw, ht, hd, hlen, er, et, ez⟩ := h.standard.facts
    obtain ⟨tr, tth, tz', dr, dt, dz⟩ := tables_ne h
    obtain ⟨h1, h2⟩ := S.L2.dims.unravelIndex_inRange hw.f2.k hi
    have hc : (S.L2.dims.unravelIndex i).1 < 3 := by
      have := h1.comp_lt; rw [show S.L2.dims.shape.length = 3 by rw [hw.e2]; simp [Dims.shape]] at this; exact this
    have hgen : ∀ j < S.nq, S.getDLambda2 i j 0 = divP S (S.point j) (S.L2.dims.unravelIndex i) j 0
        + divP S (S.point j) (S.L2.dims.unravelIndex i) j 1 + divP S (S.point j) (S.L2.dims.unravelIndex i) j 2 := by
      intro j hj
      obtain ⟨P, hP, e0⟩ := H j _ (quad_at h hj)
      have u : ∀ comp < 3, P comp = divP S (S.point j) (S.L2.dims.unravelIndex i) j comp :=
        fun comp hcomp => HasPartial.unique (hP comp hcomp) (divP_spec h.standard j _ (quad_at h hj) i hi comp hcomp)
      rw [e0, u 0 (by omega), u 1 (by omega), u 2 (by omega)]
    have hnt1 : S.L2.dims.nt = S.L0.dims.nt := by rw [hw.e2]
    unfold divP Seq.getDLambda2 at hgen
    rw [hnt1] at hgen
    generalize S.L2.dims.unravelIndex i = u at *
    rw [hw.e2] at hgen h1
    obtain ⟨r1, r2, r3⟩ := h1
    have hcase : u.1 = 0 ∨ u.1 = 1 ∨ u.1 = 2 := by omega
    rcases hcase with hc | hc | hc <;> rw [hc] at r1 r2 r3 <;> simp [Dims.cshape, Dims.shape] at r1 r2 r3
    · refine ⟨fun _ => ?_, fun e => by omega⟩
      obtain ⟨b, hb, nb⟩ := dt _ r2
      obtain ⟨c, hc', nc⟩ := dz _ r3
      rw [← diffR_iff h r1]
      intro a ha
      obtain ⟨j, hj, e⟩ := exists_quad S ha hb hc'
      have := hgen j hj
      rw [S.point_eq ht hj] at this
      simp only [e] at this
      simp [hc, factor, isDeriv, -List.getD_eq_getElem?_getD, -mul_eq_mul_right_iff] at this
      rw [← Seq.dlamT_get hw r2 hb, ← Seq.dlamZ_get hw r3 hc'] at this
      exact mul_right_cancel₀ nb (mul_right_cancel₀ nc this)
    · exact ⟨fun e => by omega, fun e => by omega⟩
    · refine ⟨fun e => by omega, fun _ => ?_⟩
      obtain ⟨a, ha, na⟩ := dr _ r1
      obtain ⟨b, hb, nb⟩ := dt _ r2
      rw [← diffZ_iff h r3]
      intro c hc'
      obtain ⟨j, hj, e⟩ := exists_quad S ha hb hc'
      have := hgen j hj
      rw [S.point_eq ht hj] at this
      simp only [e] at this
      simp [hc, factor, isDeriv, -List.getD_eq_getElem?_getD, -mul_eq_mul_left_iff] at this
      rw [← Seq.dlamR_get hw r1 ha, ← Seq.dlamT_get hw r2 hb] at this
      exact mul_left_cancel₀ (mul_ne_zero na nb) this
  · rintro ⟨H1, H2⟩ j x hx
    exact getter_divergence h.standard j x hx i hi H1 H2

/-- Case: the same splines. -/
example := C20_divergence_iff case_resolved.choose_spec.1 100 case_resolved.choose_spec.2.2.2

/-- **C20** (the exact domain) All tabulated gradients, all tabulated curls, all tabulated divergences are right exactly if there are as
many radial as poloidal splines and at most as many axial ones. -/
theorem C20_tables_iff (h : Resolved ns ps q tt tz S) :
    ((∀ i < S.L0.dims.n, ∀ j x, S.Q.x[j]? = some x → ∀ dir < 3,
        HasPartial (fun y => S.L0.evaluate y i 0) dir (S.getDLambda0 i j dir) x) ↔ ns.1 = ns.2.1 ∧ ns.2.2 ≤ ns.2.1) ∧
    ((∀ i < S.L1.dims.n, ∀ j x, S.Q.x[j]? = some x → ∃ P : Nat → Nat → ℝ,
        (∀ comp < 3, ∀ dir < 3, comp ≠ dir → HasPartial (fun y => S.L1.evaluate y i comp) dir (P comp dir) x) ∧
        S.getDLambda1 i j 0 = P 2 1 - P 1 2 ∧ S.getDLambda1 i j 1 = P 0 2 - P 2 0 ∧ S.getDLambda1 i j 2 = P 1 0 - P 0 1) ↔
      ns.1 = ns.2.1 ∧ ns.2.2 ≤ ns.2.1) ∧
    ((∀ i < S.L2.dims.n, ∀ j x, S.Q.x[j]? = some x →
        ∃ P : Nat → ℝ, (∀ comp < 3, HasPartial (fun y => S.L2.evaluate y i comp) comp (P comp) x) ∧
        S.getDLambda2 i j 0 = P 0 + P 1 + P 2) ↔ ns.1 = ns.2.1 ∧ ns.2.2 ≤ ns.2.1) := by
  obtain ⟨hw, ht, hd, hlen, er, et, ez⟩ := h.standard.facts
  obtain ⟨n1, n2, n3⟩ := h.sizes
  have edr := hd.dr
  have edt := hd.dt
  have edz := hd.dz
  refine ⟨⟨fun H => ?_, fun H i hi => (C20_gradient_iff h i hi).mpr ⟨by omega, by omega⟩⟩,
    ⟨fun H => ?_, fun H i hi => (C20_curl_iff h i hi).mpr ⟨by omega, by omega⟩⟩,
    ⟨fun H => ?_, fun H i hi => (C20_divergence_iff h i hi).mpr ⟨by omega, by omega⟩⟩⟩
  · have hin : S.L0.dims.InRange 0 (S.L0.dims.nr - 1) 0 0 := by
      simp [Dims.InRange, Dims.cshape, Dims.shape, hw.k0]; omega
    have hlt := Dims.ravelIndex_lt _ hw.f0.k hin
    have := (C20_gradient_iff h _ hlt).mp (H _ hlt)
    rw [Dims.unravelIndex_ravelIndex _ hw.f0.k hin] at this
    obtain ⟨a, b⟩ := this
    have := b rfl
    dsimp only at this a
    omega
  · have hin : S.L1.dims.InRange 1 (S.L0.dims.nr - 1) 0 0 := by
      rw [hw.e1]; simp [Dims.InRange, Dims.cshape, Dims.shape]; omega
    have hlt := Dims.ravelIndex_lt _ hw.f1.k hin
    have := (C20_curl_iff h _ hlt).mp (H _ hlt)
    rw [Dims.unravelIndex_ravelIndex _ hw.f1.k hin] at this
    obtain ⟨a, b⟩ := this
    have := b (by norm_num) rfl
    have := a (by norm_num)
    dsimp only at *
    omega
  · have hin : S.L2.dims.InRange 0 (S.L0.dims.nr - 1) 0 0 := by
      rw [hw.e2]; simp [Dims.InRange, Dims.cshape, Dims.shape]; omega
    have hlt := Dims.ravelIndex_lt _ hw.f2.k hin
    have := (C20_divergence_iff h _ hlt).mp (H _ hlt)
    rw [Dims.unravelIndex_ravelIndex _ hw.f2.k hin] at this
    obtain ⟨a, _⟩ := this
    have hin : S.L2.dims.InRange 2 0 0 0 := by
      rw [hw.e2]; simp [Dims.InRange, Dims.cshape, Dims.shape]; omega
    have hlt := Dims.ravelIndex_lt _ hw.f2.k hin
    have := (C20_divergence_iff h _ hlt).mp (H _ hlt)
    rw [Dims.unravelIndex_ravelIndex _ hw.f2.k hin] at this
    obtain ⟨_, b⟩ := this
    have := b rfl rfl
    have := a rfl
    dsimp only at *
    omega

/-- non-vacuity: sizes for which the tables are right, and sizes for which they are not. -/
example : (∃ S, Resolved (6, 6, 4) (3, 2, 1) 4 "periodic" "periodic" S) ∧ ∃ S, Resolved (5, 6, 8) (3, 2, 1) 4 "periodic" "periodic" S := by
  have key : ∀ ns : Nat × Nat × Nat, 4 ≤ ns.1 → ns.1 ≤ 100 → 4 ≤ ns.2.1 → ns.2.1 ≤ 100 → 4 ≤ ns.2.2 → ns.2.2 ≤ 100 →
      ∃ S, Resolved ns (3, 2, 1) 4 "periodic" "periodic" S := by
    intro ns a b c d e f
    obtain ⟨D, h⟩ := Admissible.exists (ns := ns) (ps := (3, 2, 1)) (q := 4) (types := ("clamped", "periodic", "periodic"))
      (fun y => y) false false (by norm_num) (by unfold DirOK; norm_num; omega) (by unfold DirOK; norm_num; omega) (by unfold DirOK; norm_num; omega)
      (by simp) fun x => by rw [jacobianDeterminant_id]; norm_num
    exact ⟨D.S, ⟨Admissible.seq h.built, h.q10, h.r, h.t, h.z, by simp, by simp⟩⟩
  exact ⟨key _ (by norm_num) (by norm_num) (by norm_num) (by norm_num) (by norm_num) (by norm_num),
    key _ (by norm_num) (by norm_num) (by norm_num) (by norm_num) (by norm_num) (by norm_num)⟩

end
end Mrx.Props
