import Verif.Props.Reproduce
import Verif.Props.SplineSpace
import Verif.Proofs.AllSizes

/-! # At every quadrature point some 1-form of the sequence does not vanish -/

set_option linter.unusedSectionVars false
set_option linter.unusedVariables false

namespace Mrx
open Finset Jax Spec Matrix Quad Props

theorem dir_strict {n p q : Nat} {ty : String} (h : DirOK n p q ty) (hq : q ≤ 10) {s : SplineBasis ℝ}
    (hs : SplineBasis.mk? n p ty = .ok s) {xw : List ℝ × List ℝ} (hsel : selectQuadrature s q = .ok xw) : ∀ x ∈ xw.1, 0 < x ∧ x < 1 := by
  rcases h with ⟨rfl, a, b, c, e⟩ | ⟨rfl, a, b, c, e, f⟩ | ⟨rfl, rfl, _⟩
  · obtain ⟨xs, ws, e1, e2, l1, l2, hi, hp, _⟩ := C11_select_rule n p a "clamped" (n - p) (Or.inl ⟨rfl, b, rfl⟩) s hs q (by omega) hq
    rw [hsel] at e1
    obtain rfl := Except.ok.inj e1
    exact hi
  · obtain ⟨xs, ws, e1, e2, l1, l2, hi, hp, _⟩ := C11_select_rule n p a "periodic" n (Or.inr ⟨rfl, c, b, rfl⟩) s hs q (by omega) hq
    rw [hsel] at e1
    obtain rfl := Except.ok.inj e1
    exact hi
  · have hty : s.type = "constant" := (Form.spline_mk?_ok hs).2.2
    have := hsel
    unfold selectQuadrature at this
    rw [hty] at this
    simp only [show ¬ ("constant" = "clamped") by decide, show ¬ ("constant" = "periodic") by decide,
      show ¬ ("constant" = "fourier") by decide, if_false, spectralQuad, show (1 ≤ 1 ∧ 1 ≤ 10) by decide, and_self, if_true] at this
    obtain rfl := Except.ok.inj this
    intro x hx
    obtain ⟨a, ha, rfl⟩ := List.mem_map.mp hx
    have : a = 0 := by
      have : (nodesAndWeights 1).1 = [0] := by decide +kernel
      rw [this] at ha
      simpa using ha
    subst this
    norm_num

theorem exists_of_sum_one {n : Nat} {f : Nat → ℝ} (h : ∑ i ∈ range n, f i = 1) : ∃ i < n, f i ≠ 0 := by
  by_contra hc
  push Not at hc
  rw [Finset.sum_eq_zero fun i hi => hc i (mem_range.1 hi)] at h
  norm_num at h

/-- At every point inside, some spline and some derivative spline is not zero. -/
theorem dir_cover {n p q : Nat} {ty : String} (h : DirOK n p q ty) {s : SplineBasis ℝ} {d : DerivativeSpline ℝ}
    (hs : SplineBasis.mk? n p ty = .ok s) (hd : DerivativeSpline.mk? s = .ok d) {x : ℝ} (h0 : 0 < x) (h1 : x < 1) :
    (∃ i < n, s.evaluate x (i : Int) ≠ 0) ∧ ∃ i < Form.dsize n ty, d.evaluate x (i : Int) ≠ 0 := by
  rcases h with ⟨rfl, a, b, c, e⟩ | ⟨rfl, a, b, c, e, f⟩ | ⟨rfl, rfl, hp⟩
  · refine ⟨exists_of_sum_one (C01_clamped_partition_of_unity n p b c s hs x h0.le h1.le), ?_⟩
    have hm := monotone_clampedKnot (K := ℝ) n p b
    have k0 : clampedKnot ℝ n p (p - 1) ≤ x := by rw [clampedKnot_zero n p (p - 1) (by omega)]; exact h0.le
    have k1 : x < clampedKnot ℝ n p n := by rw [clampedKnot_one n p n le_rfl b]; exact h1
    obtain ⟨i, hi, hne⟩ := exists_of_sum_one (N_sum hm k0 k1)
    obtain ⟨m, rfl⟩ : ∃ m, i = m + 1 := by
      refine ⟨i - 1, ?_⟩
      rcases Nat.eq_zero_or_pos i with rfl | hi0
      · have := (N_support hm hne).2
        rw [clampedKnot_zero n p _ (by omega)] at this
        exact absurd this (by linarith)
      · omega
    have hg := (clamped_gap_pos n p m a b (by omega)).ne'
    refine ⟨m, by simp [Form.dsize]; omega, ?_⟩
    rw [C08_clamped_derivative_values n p a b c s hs d hd x h1.ne m, if_pos (by omega)]
    exact div_ne_zero (mul_ne_zero (by exact_mod_cast (by omega : p ≠ 0)) hne) hg
  · refine ⟨exists_of_sum_one (C02_periodic_partition_of_unity n p a c b e s hs x h0.le h1.le), ?_⟩
    have key : ∃ i < n, (SplineBasis.mk n (p - 1) "periodic" (periodicList ℝ n (p - 1))).evaluate x (i : Int) ≠ 0 := by
      by_cases hp1 : p = 1
      · subst hp1
        exact exists_of_sum_one (C02_periodic_degree_zero n c e _ (mk?_periodic n 0 (by omega)) x h0.le h1)
      · exact exists_of_sum_one (C02_periodic_partition_of_unity n (p - 1) (by omega) c (by omega) e _ (mk?_periodic n (p - 1) (by omega)) x h0.le h1.le)
    obtain ⟨i, hi, hne⟩ := key
    refine ⟨i, by simpa [Form.dsize] using hi, ?_⟩
    rw [deriv_periodic_eq n p a c b e s hs d hd x i hi]
    exact mul_ne_zero (by exact_mod_cast (by omega : n ≠ 0)) hne
  · have hty : s.type = "constant" := (Form.spline_mk?_ok hs).2.2
    have hdt : d.type = "constant" := by
      unfold DerivativeSpline.mk? at hd
      rw [if_neg (by simp [hty])] at hd
      split at hd
      · cases hd
      · cases hd; exact hty
    refine ⟨⟨0, by omega, ?_⟩, ⟨0, by simp [Form.dsize], ?_⟩⟩
    · unfold SplineBasis.evaluate; simp [hty]
    · unfold DerivativeSpline.evaluate; simp [hdt]

/-- Clamped splines other than the last one: some is not zero before the right end. -/
theorem clamped_tail {n p : Nat} (hp : 1 ≤ p) (hpn : p < n) (hfine : n - p ≤ 99900) {s : SplineBasis ℝ}
    (hs : SplineBasis.mk? n p "clamped" = .ok s) {x : ℝ} (h0 : 0 < x) (h1 : x < 1) : ∑ i ∈ range (n - 1), s.evaluate x (i : Int) ≠ 0 := by
  have hm := monotone_clampedKnot (K := ℝ) n p hpn
  have hsum := C01_clamped_partition_of_unity n p hpn hfine s hs x h0.le h1.le
  obtain ⟨m, rfl⟩ : ∃ m, n = m + 1 := ⟨n - 1, by omega⟩
  obtain ⟨r, rfl⟩ : ∃ r, p = r + 1 := ⟨p - 1, by omega⟩
  rw [Finset.sum_range_succ] at hsum
  rw [Nat.add_sub_cancel]
  intro hz
  rw [hz, zero_add, C01_clamped_is_cox_de_boor (m + 1) (r + 1) hpn hfine s hs x h1.ne m (by omega)] at hsum
  have a0 : clampedKnot ℝ (m + 1) (r + 1) m < 1 := clampedKnot_lt_one _ _ m (by omega) hpn
  have e2 : N (clampedKnot ℝ (m + 1) (r + 1)) r (m + 1) x = 0 := by
    by_contra hne
    have := (N_support hm hne).1
    rw [clampedKnot_one _ _ (m + 1) le_rfl hpn] at this
    linarith
  have e1 : clampedKnot ℝ (m + 1) (r + 1) (m + r + 1) = 1 := clampedKnot_one _ _ _ (by omega) hpn
  have hN1 : N (clampedKnot ℝ (m + 1) (r + 1)) r m x ≤ 1 := by
    have hs1 : ∑ i ∈ range (m + 1), N (clampedKnot ℝ (m + 1) (r + 1)) r i x = 1 :=
      N_sum hm (by rw [clampedKnot_zero _ _ r (by omega)]; exact h0.le) (by rw [clampedKnot_one _ _ (m + 1) le_rfl hpn]; exact h1)
    rw [← hs1]
    exact Finset.single_le_sum (f := fun i => N (clampedKnot ℝ (m + 1) (r + 1)) r i x) (fun i _ => N_nonneg hm r i x) (mem_range.2 (by omega))
  have hN0 := N_nonneg hm r m x
  rw [N, e2, e1, mul_zero, add_zero] at hsum
  have hlt : (x - clampedKnot ℝ (m + 1) (r + 1) m) / (1 - clampedKnot ℝ (m + 1) (r + 1) m) < 1 := by
    rw [div_lt_one (by linarith)]; linarith
  rcases hN0.eq_or_lt with hN0 | hN0
  · rw [← hN0, mul_zero] at hsum; norm_num at hsum
  · have := mul_lt_mul_of_pos_right hlt hN0
    rw [hsum, one_mul] at this
    linarith

section
variable {ns ps : Nat × Nat × Nat} {q : Nat} {types : String × String × String} {F : V3 → V3} {polar dirichlet : Bool} {D : DeRham}

/-- What the tables hold at a quadrature point. -/
theorem table_cover (h : Admissible ns ps q types F polar dirichlet D) {j : Nat} (hj : j < D.nq) :
    (∃ i < D.S.L0.dims.dr, D.S.tR true j i ≠ 0) ∧ (∃ i < D.S.L0.dims.nt, D.S.tT false j i ≠ 0) ∧ (∃ i < D.S.L0.dims.nz, D.S.tZ false j i ≠ 0) ∧
    (∃ i < D.S.L0.dims.dz, D.S.tZ true j i ≠ 0) ∧
    (types.1 = "clamped" → ∑ i ∈ range D.S.L0.dims.nr, D.S.tR false j i = 1 ∧ ∑ i ∈ range (D.S.L0.dims.nr - 1), D.S.tR false j i ≠ 0) ∧
    (types.2.1 = "periodic" → ∑ i ∈ range D.S.L0.dims.nt, D.S.tT false j i = 1) := by
  have hw := h.quad.wf
  have hd := h.dims0
  obtain ⟨m0, _, _, _, hQ⟩ := Seq.mk?_inv (Admissible.seq h.built)
  obtain ⟨_, hdd, s0, s1, s2, d0, d1, d2⟩ := Form.mk?_inv m0
  have hj' : j < D.S.nq := by
    have := h.quad.len
    rw [DeRham.nq] at hj
    omega
  obtain ⟨a1, a2, a3, _⟩ := D.S.unravelQuad_spec hj'
  unfold Quad.Rule.mk? at hQ
  split at hQ
  case h_2 => cases hQ
  rename_i rx ry rz hx hy hz
  have hQ' := Except.ok.inj hQ
  have ex : D.S.Q.xx = rx.1 := by rw [← hQ']; rfl
  have ey : D.S.Q.xy = ry.1 := by rw [← hQ']; rfl
  have ez : D.S.Q.xz = rz.1 := by rw [← hQ']; rfl
  have mem : ∀ {l : List ℝ} {i : Nat}, i < l.length → l.getD i 0 ∈ l := by
    intro l i hi
    rw [List.getD_eq_getElem?_getD, List.getElem?_eq_getElem hi]; exact List.getElem_mem _
  obtain ⟨x0, x1⟩ := dir_strict h.r h.q10 s0 hx _ (ex ▸ mem a1)
  obtain ⟨y0, y1⟩ := dir_strict h.t h.q10 s1 hy _ (ey ▸ mem a2)
  obtain ⟨z0, z1⟩ := dir_strict h.z h.q10 s2 hz _ (ez ▸ mem a3)
  rw [← ex] at x0 x1
  rw [← ey] at y0 y1
  rw [← ez] at z0 z1
  obtain ⟨cx, cdx⟩ := dir_cover h.r s0 d0 x0 x1
  obtain ⟨cy, cdy⟩ := dir_cover h.t s1 d1 y0 y1
  obtain ⟨cz, cdz⟩ := dir_cover h.z s2 d2 z0 z1
  have n1 : D.S.L0.dims.nr = ns.1 := by rw [hd]
  have n2 : D.S.L0.dims.nt = ns.2.1 := by rw [hd]
  have n3 : D.S.L0.dims.nz = ns.2.2 := by rw [hd]
  have n4 : D.S.L0.dims.dr = Form.dsize ns.1 types.1 := by rw [hd]
  have n6 : D.S.L0.dims.dz = Form.dsize ns.2.2 types.2.2 := by rw [hd]
  refine ⟨?_, ?_, ?_, ?_, ?_, ?_⟩
  · obtain ⟨i, hi, e⟩ := cdx
    exact ⟨i, n4 ▸ hi, by simp only [Seq.tR, if_true]; rw [Seq.dlamR_get hw (n4 ▸ hi) a1]; exact e⟩
  · obtain ⟨i, hi, e⟩ := cy
    exact ⟨i, n2 ▸ hi, by simp only [Seq.tT, Bool.false_eq_true, if_false]; rw [Seq.lamT_get hw (n2 ▸ hi) a2]; exact e⟩
  · obtain ⟨i, hi, e⟩ := cz
    exact ⟨i, n3 ▸ hi, by simp only [Seq.tZ, Bool.false_eq_true, if_false]; rw [Seq.lamZ_get hw (n3 ▸ hi) a3]; exact e⟩
  · obtain ⟨i, hi, e⟩ := cdz
    exact ⟨i, n6 ▸ hi, by simp only [Seq.tZ, if_true]; rw [Seq.dlamZ_get hw (n6 ▸ hi) a3]; exact e⟩
  · intro hty
    have hr := h.r
    rw [hty] at s0 hr
    have hr' : 1 ≤ ps.1 ∧ ps.1 < ns.1 ∧ ns.1 - ps.1 ≤ 99900 := by
      unfold DirOK at hr; simp at hr; omega
    have e : ∀ i ∈ range ns.1, D.S.tR false j i = D.S.L0.Λ0.evaluate (D.S.Q.xx.getD (D.S.unravelQuad j).1 0) i := fun i hi => by
      simp only [Seq.tR, Bool.false_eq_true, if_false]; rw [Seq.lamR_get hw (by rw [n1]; exact mem_range.1 hi) a1]
    rw [n1]
    constructor
    · rw [Finset.sum_congr rfl e]
      exact C01_clamped_partition_of_unity ns.1 ps.1 hr'.2.1 hr'.2.2 _ s0 _ x0.le x1.le
    · rw [Finset.sum_congr rfl fun i hi => e i (mem_range.2 (by have := mem_range.1 hi; omega))]
      exact clamped_tail hr'.1 hr'.2.1 hr'.2.2 s0 x0 x1
  · intro hty
    have hr := h.t
    rw [hty] at s1 hr
    have hr' : 1 ≤ ps.2.1 ∧ (ps.2.1 < ns.2.1 ∨ ps.2.1 = 1) ∧ 1 ≤ ns.2.1 ∧ ns.2.1 ≤ 49975 := by
      unfold DirOK at hr; simp at hr; omega
    have e : ∀ i ∈ range ns.2.1, D.S.tT false j i = D.S.L0.Λ1.evaluate (D.S.Q.xy.getD (D.S.unravelQuad j).2.1 0) i := fun i hi => by
      simp only [Seq.tT, Bool.false_eq_true, if_false]; rw [Seq.lamT_get hw (by rw [n2]; exact mem_range.1 hi) a2]
    rw [n2, Finset.sum_congr rfl e]
    exact C02_periodic_partition_of_unity ns.2.1 ps.2.1 hr'.1 hr'.2.2.1 hr'.2.1 hr'.2.2.2 _ s1 _ y0.le y1.le

theorem T3_single (a b c : Nat) {i0 j0 l0 : Nat} (hi : i0 < a) (hj : j0 < b) (hl : l0 < c) (u v w : Nat → ℝ) :
    T3 a b c (fun i j l => if i = i0 ∧ j = j0 ∧ l = l0 then 1 else 0) u v w = u i0 * v j0 * w l0 := by
  unfold T3
  rw [Finset.sum_eq_single_of_mem i0 (mem_range.2 hi), Finset.sum_eq_single_of_mem j0 (mem_range.2 hj), Finset.sum_eq_single_of_mem l0 (mem_range.2 hl)]
  · simp
  · intro l _ hne; beta_reduce; rw [if_neg (by tauto), zero_mul]
  · intro j _ hne; exact Finset.sum_eq_zero fun l _ => by beta_reduce; rw [if_neg (by tauto), zero_mul]
  · intro i _ hne; exact Finset.sum_eq_zero fun j _ => Finset.sum_eq_zero fun l _ => by beta_reduce; rw [if_neg (by tauto), zero_mul]

theorem T3_prod (a b c : Nat) (f : Nat → ℝ) {l0 : Nat} (hl : l0 < c) (u v w : Nat → ℝ) :
    T3 a b c (fun i j l => if l = l0 then f i else 0) u v w = (∑ i ∈ range a, f i * u i) * (∑ j ∈ range b, v j) * w l0 := by
  unfold T3
  rw [Finset.sum_mul_sum, Finset.sum_mul]
  refine Finset.sum_congr rfl fun i _ => ?_
  rw [Finset.sum_mul]
  refine Finset.sum_congr rfl fun j _ => ?_
  rw [Finset.sum_eq_single_of_mem l0 (mem_range.2 hl)]
  · beta_reduce; rw [if_pos rfl]; ring
  · intro l _ hne; beta_reduce; rw [if_neg hne, zero_mul]

/-- At every quadrature point some 1-form of the sequence does not vanish. -/
theorem cover1 (h : Admissible ns ps q types F polar dirichlet D) {j : Nat} (hj : j < D.nq) :
    ∃ u : Fin D.m1 → ℝ, ∃ k < 3, evaluateAtXq D.S.getLambda1 (D.E1ᵀ *ᵥ u) j k ≠ 0 := by
  have hw := h.quad.wf
  have hdk : D.S.L1.dims = { D.S.L0.dims with k := 1 } := (Seq.nr_eq hw).1
  obtain ⟨⟨i0, hi0, c1⟩, ⟨j0, hj0, c2⟩, ⟨l0, hl0, c3⟩, ⟨l1, hl1, c4⟩, c5, c6⟩ := table_cover h hj
  cases hp : polar
  · -- component 0 of a single basis function
    subst hp
    have hin : D.S.L1.dims.cshape 0 = (D.S.L0.dims.dr, D.S.L0.dims.nt, D.S.L0.dims.nz) := by rw [hdk]; simp [Dims.cshape, Dims.shape]
    have hv : Dims.validDegree D.S.L1.dims.k := hw.f1.k
    obtain ⟨S, hS, ⟨hp, rfl⟩ | ⟨hp, rfl⟩⟩ := Admissible.cases' h.built
    · cases hp
    have key : ∃ u, (BoundaryOp.mk S.L1.dims (DeRham.bcTypes dirichlet)).matrixᵀ *ᵥ u = fun a : Fin S.L1.dims.n =>
        (fun c i j l => if c = 0 ∧ i = i0 ∧ j = j0 ∧ l = l0 then (1 : ℝ) else 0) (S.L1.dims.unravelIndex a).1 (S.L1.dims.unravelIndex a).2.1
          (S.L1.dims.unravelIndex a).2.2.1 (S.L1.dims.unravelIndex a).2.2.2 := by
      refine (boundary_range (BoundaryOp.mk S.L1.dims (DeRham.bcTypes dirichlet)) (by right; left; exact (h.degrees).2.1) _).2 fun a ha => ?_
      beta_reduce
      rw [if_neg]
      rintro ⟨e0, -⟩
      apply ha
      have k1 : S.L1.dims.k = 1 := (h.degrees).2.1
      refine ⟨.inl ?_, .inr ?_, .inr ?_⟩
      · show isDeriv S.L1.dims.k (S.L1.dims.unravelIndex a).1 0 = true
        rw [k1, e0]; rfl
      · cases dirichlet <;> simp [DeRham.bcTypes, Keeps1, LeftConstrained, RightConstrained]
      · cases dirichlet <;> simp [DeRham.bcTypes, Keeps1, LeftConstrained, RightConstrained]
    obtain ⟨u, hu⟩ := key
    refine ⟨u, 0, by omega, ?_⟩
    change evaluateAtXq S.getLambda1 ((BoundaryOp.mk S.L1.dims (DeRham.bcTypes dirichlet)).matrixᵀ *ᵥ u) j 0 ≠ 0
    rw [hu, Seq.field1 (S := S) hw _ j 0 (by omega)]
    unfold Seq.compVal
    change S.L1.dims.cshape 0 = _ at hin
    have e : ∀ i < (S.L1.dims.cshape 0).1, ∀ j < (S.L1.dims.cshape 0).2.1, ∀ l < (S.L1.dims.cshape 0).2.2,
        coef S.L1.dims (fun a => (fun c i j l => if c = 0 ∧ i = i0 ∧ j = j0 ∧ l = l0 then (1 : ℝ) else 0) (S.L1.dims.unravelIndex a).1
          (S.L1.dims.unravelIndex a).2.1 (S.L1.dims.unravelIndex a).2.2.1 (S.L1.dims.unravelIndex a).2.2.2) 0 i j l =
        if i = i0 ∧ j = j0 ∧ l = l0 then 1 else 0 := fun i hi j hj l hl => by
      rw [coef_ofArray S.L1.dims hv (fun c i j l => if c = 0 ∧ i = i0 ∧ j = j0 ∧ l = l0 then (1 : ℝ) else 0) ⟨hi, hj, hl⟩]
      simp
    rw [T3_congr e, hin, T3_single _ _ _ hi0 hj0 hl0, show S.L1.dims.k = 1 from (h.degrees).2.1]
    exact mul_ne_zero (mul_ne_zero c1 c2) c3
  · -- component 2: constant on every cross section, except for the outermost ring under Dirichlet conditions
    obtain ⟨t1, t2, t3, p1, p2⟩ := h.polar hp
    have hcw := h.cw t1 (by rw [t2]; decide) t3
    obtain ⟨c51, c52⟩ := c5 t1
    have d0 := hcw.d0
    have hC : Conf polar dirichlet ns.1 ns.2.1 ns.2.2 1 (fun c i j l => if c = 2 then (if l = l1 then (if dirichlet = true ∧ i = ns.1 - 1 then 0 else 1) else 0) else 0) := by
      rw [hp]
      simp only [Conf, if_true, PolarForm, one_ne_zero, if_false]
      refine ⟨⟨⟨fun _ => 0, fun _ => 0, fun j _ l _ => by simp⟩, fun _ j _ l _ => by simp⟩,
        ⟨fun l => if l = l1 then 1 else 0, fun _ => 0, fun _ => 0, fun j _ l _ => ?_⟩, fun hd j _ l _ => by simp [hd]⟩
      have e0 : ¬ (dirichlet = true ∧ (0 : Nat) = ns.1 - 1) := by rintro ⟨-, h0⟩; omega
      have e1 : ¬ (dirichlet = true ∧ (1 : Nat) = ns.1 - 1) := by rintro ⟨-, h0⟩; omega
      simp only [if_neg e0, if_neg e1]
      simp
    obtain ⟨u, hu⟩ := hcw.mk1 _ hC
    refine ⟨u, 2, by omega, ?_⟩
    rw [Seq.field1 hw _ j 2 (by omega)]
    unfold Seq.compVal
    have hin : D.S.L1.dims.cshape 2 = (ns.1, ns.2.1, ns.2.2) := by rw [hcw.d1]; simp [Dims.cshape, Dims.shape, dk]
    rw [hin]
    have e : ∀ i < ns.1, ∀ j < ns.2.1, ∀ l < ns.2.2, coef D.S.L1.dims (D.E1ᵀ *ᵥ u) 2 i j l =
        if l = l1 then (fun i => if dirichlet = true ∧ i = ns.1 - 1 then (0 : ℝ) else 1) i else 0 := fun i hi j hj l hl => by
      rw [hu 2 i j l (((dk_in _ _ _).2.2.2.1 _ _ _).2 ⟨hi, hj, hl⟩)]
      simp
    have n1 : D.S.L0.dims.nr = ns.1 := by rw [d0]; rfl
    have n2 : D.S.L0.dims.nt = ns.2.1 := by rw [d0]; rfl
    have n3 : D.S.L0.dims.dz = ns.2.2 := by rw [d0]; rfl
    dsimp only
    rw [T3_congr e, T3_prod _ _ _ (fun i => if dirichlet = true ∧ i = ns.1 - 1 then (0 : ℝ) else 1) (n3 ▸ hl1), show D.S.L1.dims.k = 1 from (h.degrees).2.1]
    have c6' := c6 t2
    rw [n2] at c6'
    rw [n1] at c51 c52
    have ed : (isDeriv 1 2 0 = false) ∧ (isDeriv 1 2 1 = false) ∧ isDeriv 1 2 2 = true := ⟨rfl, rfl, rfl⟩
    rw [ed.1, ed.2.1, ed.2.2, c6', mul_one]
    refine mul_ne_zero ?_ c4
    cases dirichlet
    · simp only [Bool.false_eq_true, false_and, if_false, one_mul]
      rw [c51]; norm_num
    · simp only [true_and]
      obtain ⟨m, hm⟩ : ∃ m, ns.1 = m + 1 := ⟨ns.1 - 1, by omega⟩
      rw [hm, Nat.add_sub_cancel] at c52 ⊢
      rw [Finset.sum_range_succ, if_pos rfl, zero_mul, add_zero, Finset.sum_congr rfl fun i hi => by
        rw [if_neg (show ¬ i = m by have := mem_range.1 hi; omega), one_mul]]
      exact c52

end

end Mrx
