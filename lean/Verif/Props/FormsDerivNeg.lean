import Verif.Props.FormsDeriv

/-! # C20: the tabulated derivatives are wrong when `nr ≠ nt`, and with a clamped axial direction -/

set_option linter.unusedSectionVars false

namespace Mrx.Props
open Finset Mrx Spec

section Generic
variable {K : Type*} [Field K] [LinearOrder K] [IsStrictOrderedRing K]

/-- **C20** finding: whenever `nr ≠ nt` the tabulated radial derivative of every basis function with the
last radial index is `0` at every quadrature point. -/
theorem C20_last_radial_gradient_tabulated_as_zero (ns ps : Nat × Nat × Nat) (q : Nat) (tt tz : String)
    (S : Seq K) (hS : Seq.mk? ns ps q ("clamped", tt, tz) = .ok S) (hr : 2 ≤ ns.1) (hne : ns.1 ≠ ns.2.1)
    (i j : Nat) (hi : (S.L0.dims.unravelIndex i).2.1 = ns.1 - 1) : S.getDLambda0 i j 0 = 0 := by
  have hw := Seq.mk?_wf hS
  have hd := (Form.mk?_inv (Seq.mk?_inv hS).1).2.1
  have e1 : S.L0.dims.nt = ns.2.1 := by rw [hd]
  have e2 : S.L0.dΛ0.n = ns.1 - 1 := by rw [hw.f0.dr, hd]; simp [Form.dsize]
  unfold Seq.getDLambda0 Seq.diffR
  simp only [hi, e1, if_true]
  rw [if_pos (show 0 < ns.1 - 1 by omega),
    if_neg (show ¬ (((ns.1 - 1 : Nat) : Int) = (ns.2.1 : Int) - 1) by omega)]
  have : S.dlamR.get (ns.1 - 1) (S.unravelQuad j).1 = S.dlamR.get (ns.1 - 1 - 1) (S.unravelQuad j).1 := by
    unfold Seq.dlamR Table.get
    simp only [e2]
    rw [show min (ns.1 - 1) (ns.1 - 1 - 1) = ns.1 - 1 - 1 by omega, Nat.min_self]
  rw [this]; ring

/-- Case: 4 × 3 × 1 splines, the last radial spline. -/
example := C20_last_radial_gradient_tabulated_as_zero (K := ℚ) (4, 3, 1) (2, 1, 0) 2 "periodic" "constant" _ rfl (by norm_num)
  (by norm_num) 10 5 (by decide +kernel)

/-- **C20** finding: with a clamped axial direction the tabulated axial derivative of every basis
function with the last axial index is `0` at every quadrature point. -/
theorem C20_last_axial_gradient_tabulated_as_zero (ns ps : Nat × Nat × Nat) (q : Nat) (tr tt : String)
    (S : Seq K) (hS : Seq.mk? ns ps q (tr, tt, "clamped") = .ok S) (hr : 2 ≤ ns.2.2)
    (i j : Nat) (hi : (S.L0.dims.unravelIndex i).2.2.2 = ns.2.2 - 1) : S.getDLambda0 i j 2 = 0 := by
  have hw := Seq.mk?_wf hS
  have hd := (Form.mk?_inv (Seq.mk?_inv hS).1).2.1
  have e2 : S.L0.dΛ2.n = ns.2.2 - 1 := by rw [hw.f0.dz, hd]; simp [Form.dsize]
  unfold Seq.getDLambda0 Seq.diffZ
  simp only [hi]
  rw [if_neg (by omega), if_neg (by omega), if_pos (by omega)]
  have : S.dlamZ.get (ns.2.2 - 1) (S.unravelQuad j).2.2 = S.dlamZ.get (ns.2.2 - 1 - 1) (S.unravelQuad j).2.2 := by
    unfold Seq.dlamZ Table.get
    simp only [e2]
    rw [show min (ns.2.2 - 1) (ns.2.2 - 1 - 1) = ns.2.2 - 1 - 1 by omega, Nat.min_self]
  rw [this]; ring

/-- Case: 4 × 3 × 2 splines, the last axial spline. -/
example := C20_last_axial_gradient_tabulated_as_zero (K := ℚ) (4, 3, 2) (2, 1, 1) 2 "clamped" "periodic" _ rfl (by norm_num)
  11 5 (by decide +kernel)

end Generic

/-- Some angular basis function does not vanish at a given quadrature point. -/
theorem angular_nonzero {n p k : Nat} {ty : String} (hty : ty = "periodic" ∨ ty = "constant") (hn : 1 ≤ n)
    {s : SplineBasis ℝ} (hs : SplineBasis.mk? n p ty = .ok s) {d : DerivativeSpline ℝ}
    (hd : DerivativeSpline.mk? s = .ok d)
    (hfine : n ≤ 49975) (h1 : 1 ≤ k) (h2 : k ≤ 10) {xw : List ℝ × List ℝ}
    (hq : Quad.selectQuadrature s k = .ok xw) :
    0 < xw.1.length ∧ ∀ x ∈ xw.1, ∃ i < n, s.evaluate x (i : Int) ≠ 0 := by
  rcases hty with rfl | rfl
  · have hacc := ((C09_constructor_accepts_iff (K := ℝ) n p "periodic").mp ⟨s, hs⟩).2
    have hp : 1 ≤ p := by
      by_contra hc
      have h0 : p = 0 := by omega
      subst h0
      rw [of_mk?_periodic hacc hs] at hd
      simp [DerivativeSpline.mk?] at hd
    obtain ⟨xs, ws, e1, e2, hl, _, hin, _⟩ := C11_select_rule n p hp "periodic" n
      (Or.inr ⟨rfl, hn, hacc, rfl⟩) s hs k h1 h2
    rw [hq] at e1
    obtain rfl := Except.ok.inj e1
    refine ⟨by simp only [hl]; positivity, fun x hx => ?_⟩
    obtain ⟨a, b⟩ := hin x hx
    have := C02_periodic_partition_of_unity n p hp hn hacc hfine s hs x a.le b.le
    by_contra hc
    push Not at hc
    rw [sum_eq_zero fun i hi => hc i (mem_range.mp hi)] at this
    exact zero_ne_one this
  · have hty : s.type = "constant" := (Form.spline_mk?_ok hs).2.2
    constructor
    · unfold Quad.selectQuadrature at hq
      simp [hty, Quad.spectralQuad] at hq
      rw [← hq]; simp [Quad.nodesAndWeights, Quad.gauss1Nodes]
    · intro x _
      exact ⟨0, hn, by unfold SplineBasis.evaluate; simp [hty]⟩

/-- **C20** negation: for **every** sequence with a clamped radial direction, periodic/constant angles and
`nr ≠ nt` there are a basis function and a quadrature point where the tabulated radial derivative is not
the radial derivative. -/
theorem C20_gradient_wrong_when_nr_ne_nt {ns ps : Nat × Nat × Nat} {q : Nat} {tt tz : String} {S : Seq ℝ}
    (h : Standard ns ps q tt tz S) (hne : ns.1 ≠ ns.2.1) (ht1 : 1 ≤ ns.2.1) (hz1 : 1 ≤ ns.2.2) :
    ∃ i j x, i < S.L0.dims.n ∧ S.Q.x[j]? = some x ∧
      ¬ HasPartial (fun y => S.L0.evaluate y i 0) 0 (S.getDLambda0 i j 0) x := by
  obtain ⟨hw, ht, hd, hlen, er, et, ez⟩ := h.facts
  obtain ⟨m0, _, _, _, hQ⟩ := Seq.mk?_inv h.built
  obtain ⟨_, _, s0, s1, s2, d0, d1, d2⟩ := Form.mk?_inv m0
  have hpn := h.deg
  have hp : 1 ≤ ps.1 := by
    by_contra hc
    have h0 : ps.1 = 0 := by omega
    rw [of_mk?_clamped hpn s0] at d0
    simp [DerivativeSpline.mk?, h0] at d0
  have hn2 : 2 ≤ ns.1 := by omega
  unfold Quad.Rule.mk? at hQ
  split at hQ
  case h_2 => cases hQ
  rename_i rx ry rz hx hy hz'
  have hQ' := Except.ok.inj hQ
  have exx : S.Q.xx = rx.1 := by rw [← hQ']; rfl
  have exy : S.Q.xy = ry.1 := by rw [← hQ']; rfl
  have exz : S.Q.xz = rz.1 := by rw [← hQ']; rfl
  obtain ⟨ly, ny⟩ := angular_nonzero h.theta ht1 s1 d1 h.fineT h.q1 h.q10 hy
  obtain ⟨lz, nz⟩ := angular_nonzero h.zeta hz1 s2 d2 h.fineZ h.q1 h.q10 hz'
  have mem : ∀ (l : List ℝ) j, j < l.length → l.getD j 0 ∈ l := by
    intro l j hj
    rw [List.getD_eq_getElem?_getD, List.getElem?_eq_getElem hj]; exact List.getElem_mem _
  obtain ⟨i2, hi2, v2⟩ := ny _ (mem _ _ ly)
  obtain ⟨i3, hi3, v3⟩ := nz _ (mem _ _ lz)
  -- a radial point in the last element
  obtain ⟨xs, ws, e1, e2, hl, _, hin, _⟩ := C11_select_rule ns.1 ps.1 hp "clamped" (ns.1 - ps.1)
    (Or.inl ⟨rfl, hpn, rfl⟩) S.L0.Λ0 s0 q h.q1 h.q10
  rw [hx] at e1
  have e1' := Except.ok.inj e1
  set m := ns.1 - ps.1 with hm
  have hm1 : 1 ≤ m := by omega
  obtain ⟨x1, w1, g1, _, glo, _, _⟩ := C11_composite_points_inside _ (linspace01_pairwise (K := ℝ) (m+1)) q h.q1 h.q10
    (m - 1) 0 (by rw [length_linspace01]; omega) (by have := h.q1; omega)
  have hxs : xs = (Quad.compositeQuad (Jax.linspace01 ℝ (m + 1)) q).1 := by rw [← e2]
  rw [← hxs] at g1
  have hrx : rx.1 = xs := by rw [e1']
  rw [← hrx, ← exx] at g1
  set j1 := (m - 1) * q + 0 with hj1
  have hj1l : j1 < S.Q.xx.length := (List.getElem?_eq_some_iff.mp g1).1
  have hx1 : S.Q.xx.getD j1 0 = x1 := by rw [List.getD_eq_getElem?_getD, g1]; rfl
  have hx1in : 0 < x1 ∧ x1 < 1 := hin x1 (by
    rw [← hrx, ← exx]; exact List.mem_of_getElem? g1)
  rw [getElem_linspace01, Nat.add_sub_cancel] at glo
  -- the derivative spline there is positive
  have hkn : clampedKnot ℝ ns.1 ps.1 (ns.1 - 1) = ((m - 1 : Nat) : ℝ) / (m : ℝ) := by
    unfold clampedKnot
    split
    · rename_i hh
      have : m - 1 = 0 := by omega
      rw [this]; simp
    · rw [if_neg (by omega), show ns.1 - 1 - ps.1 = m - 1 by omega]
  have hkl : clampedKnot ℝ ns.1 ps.1 (ns.1 - 1) < 1 := clampedKnot_lt_one _ _ _ (by omega) hpn
  have hval := C08_clamped_derivative_values ns.1 ps.1 hp hpn h.fineR S.L0.Λ0 s0 S.L0.dΛ0 d0 x1
    hx1in.2.ne (ns.1 - 2)
  rw [if_pos (by omega), show ns.1 - 2 + 1 = ns.1 - 1 by omega,
    N_last_power (monotone_clampedKnot ns.1 ps.1 hpn) (ps.1 - 1) (ns.1 - 1) x1
      (fun k hk => clampedKnot_one _ _ _ (by omega) hpn) (by rw [hkn]; exact glo.le) hx1in.2,
    clampedKnot_one _ _ (ns.1 - 2 + ps.1 + 1) (by omega) hpn] at hval
  have hdpos : 0 < S.L0.dΛ0.evaluate x1 ((ns.1 - 2 : Nat) : Int) := by
    rw [hval, hkn]
    rw [hkn] at hkl
    have a : 0 < x1 - ((m - 1 : Nat) : ℝ) / (m : ℝ) := by linarith
    have b : 0 < 1 - ((m - 1 : Nat) : ℝ) / (m : ℝ) := by linarith
    have c : (0 : ℝ) < (ps.1 : ℝ) := by exact_mod_cast hp
    positivity
  -- indices
  set j := (0 * S.Q.xx.length + j1) * S.Q.xz.length + 0 with hjdef
  have hjlt : j < S.nq := Jax.flat_lt (by rw [exy]; exact ly) hj1l (by rw [exz]; exact lz)
  have hju : S.unravelQuad j = (j1, 0, 0) := by
    unfold Seq.unravelQuad
    rw [hjdef, Jax.unravelIndex3_flat (by rw [exy]; exact ly) hj1l (by rw [exz]; exact lz)]
  have hin0 : S.L0.dims.InRange 0 (ns.1 - 1) i2 i3 := by
    unfold Dims.InRange
    simp only [Dims.cshape, Dims.shape, hw.k0]
    simp [er, et, ez]; omega
  refine ⟨S.L0.dims.ravelIndex 0 (ns.1 - 1) i2 i3, j, S.point j, Dims.ravelIndex_lt _ hw.f0.k hin0, ?_, ?_⟩
  · unfold Seq.point
    rw [List.getD_eq_getElem?_getD, List.getElem?_eq_getElem (by rw [hlen]; exact hjlt)]; rfl
  · intro hP
    rw [C20_last_radial_gradient_tabulated_as_zero ns ps q tt tz S h.built hn2 hne _ j
      (by rw [Dims.unravelIndex_ravelIndex _ hw.f0.k hin0])] at hP
    have hL : S.L0 = { S.L0 with dims := { S.L0.dims with k := 0 } } := by rw [← hw.k0]
    have hP' := form_partial hw ht hd hjlt S.L0 0 hL (by simp [Dims.validDegree]) hin0 0
      (by simp [Dims.shape, hw.k0]) 0 (by omega) (by simp [isDeriv])
    have hu := HasDerivAt.unique hP' hP
    rw [S.point_eq ht hjlt, hju] at hu
    simp only [if_true, factor, isDeriv] at hu
    simp at hu
    have hT : S.trueDiffR (ns.1 - 1) j1 = S.L0.dΛ0.evaluate x1 ((ns.1 - 2 : Nat) : Int) := by
      unfold Seq.trueDiffR
      rw [er, if_neg (by omega), if_pos rfl, sub_zero, Seq.dlamR_get hw (by rw [hd.dr]; omega) hj1l, hx1,
        show ns.1 - 1 - 1 = ns.1 - 2 by omega]
    rw [hT] at hu
    simp only [exy, exz] at hu
    simp only [List.getD_eq_getElem?_getD] at v2 v3
    rcases hu with (hu | hu) | hu
    · exact hdpos.ne' hu
    · exact v2 hu
    · exact v3 hu

/-! ## Non-vacuity: a standard sequence exists -/

example : ∃ S : Seq ℝ, Standard (4, 4, 1) (2, 2, 0) 3 "periodic" "constant" S := by
  have h : ∃ S : Seq ℝ, Seq.mk? (4, 4, 1) (2, 2, 0) 3 ("clamped", "periodic", "constant") = .ok S := by
    unfold Seq.mk? Form.mk?
    simp [mk?_clamped 4 2 (Or.inl (by omega)), mk?_periodic 4 2 (Or.inl (by omega)),
      mk?_deriv_clamped 4 2 (by omega) (by omega), mk?_deriv_periodic 4 2 (by omega) (by omega) (by omega),
      show SplineBasis.mk? (K := ℝ) 1 0 "constant" = .ok ⟨1, 0, "constant", [0, 1]⟩ from rfl,
      show DerivativeSpline.mk? (K := ℝ) ⟨1, 0, "constant", [0, 1]⟩
        = .ok ⟨1, 0, "constant", [0, 1], ⟨1, 0, "constant", [0, 1]⟩⟩ from by simp [DerivativeSpline.mk?, SplineBasis.mk?],
      Dims.validDegree, Quad.Rule.mk?, Quad.selectQuadrature, Quad.spectralQuad]
  obtain ⟨S, hS⟩ := h
  exact ⟨S, hS, Or.inl rfl, Or.inr rfl, by norm_num, by norm_num, by norm_num, by norm_num, by norm_num,
    by norm_num⟩

end Mrx.Props
