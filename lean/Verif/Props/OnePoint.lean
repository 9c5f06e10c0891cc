import Verif.Proofs.Shift5
import Verif.Props.Mass
import Verif.Model.Mappings
import Mathlib.Algebra.BigOperators.Intervals
import Mathlib.Data.List.GetD

/-!
# C31: linear splines with one point per element

With linear splines in the toroidal angle, one quadrature point per element and an even number of elements, the function whose coefficients alternate along the torus vanishes at every quadrature
point, so the mass matrix of 0-forms is singular: with and without Dirichlet conditions, polar or not.
-/

set_option linter.unusedSectionVars false
set_option linter.unusedVariables false

namespace Mrx.Props
open Mrx Spec Matrix Finset Quad

/-- Coefficients that alternate along the torus. -/
def alternating (nz : Nat) {N : Nat} : Fin N → ℝ := fun r => (-1) ^ (r.val % nz)

theorem neg_one_shift {nz m r : Nat} (he : Even nz) : ((-1 : ℝ)) ^ ((r % nz + m) % nz) = (-1) ^ m * (-1) ^ (r % nz) := by
  rw [← pow_add, Nat.add_comm m]
  conv_rhs => rw [← Nat.div_add_mod (r % nz + m) nz]
  rw [pow_add, pow_mul, he.neg_one_pow, one_pow, one_mul]

theorem alternating_extract {M N nz : Nat} (hz : 0 < nz) (he : Even nz) (hM : nz ∣ M) (hN : nz ∣ N) (E : Matrix (Fin M) (Fin N) ℝ) (m : Nat)
    (hE : ∀ (r : Fin M) (c : Fin N) (hr hc), E ⟨shiftIndex nz m r, hr⟩ ⟨shiftIndex nz m c, hc⟩ = E r c) (c : Fin N) (hc : shiftIndex nz m c < N) :
    (Eᵀ *ᵥ alternating nz) ⟨shiftIndex nz m c, hc⟩ = (-1) ^ m * (Eᵀ *ᵥ alternating nz) c := by
  show ∑ r, Eᵀ ⟨shiftIndex nz m c, hc⟩ r * alternating nz r = (-1) ^ m * ∑ r, Eᵀ c r * alternating nz r
  rw [← Equiv.sum_comp (shiftPerm nz m M hz hM), mul_sum]
  refine sum_congr rfl fun r _ => ?_
  have h1 : alternating nz (shiftPerm nz m M hz hM r) = (-1) ^ m * alternating nz r := by
    unfold alternating
    rw [shiftPerm_val, shiftIndex_mod hz, neg_one_shift he]
  have h2 : Eᵀ ⟨shiftIndex nz m c, hc⟩ (shiftPerm nz m M hz hM r) = Eᵀ c r := hE r c (shiftIndex_lt hz hM r.2) hc
  rw [h1, h2]
  ring

/-- A hat function at a midpoint. -/
theorem hat_mid {n : Nat} (hn : 0 < n) (i e : Nat) : N (periodicKnot ℝ n 1) 1 i ((1 / 2 + e) / n) = if i = e ∨ i = e + 1 then 1 / 2 else 0 := by
  have hn' : (n : ℝ) ≠ 0 := by exact_mod_cast hn.ne'
  have hp : (0 : ℝ) < n := by exact_mod_cast hn
  have key : ∀ k : Nat, N (periodicKnot ℝ n 1) 0 k ((1 / 2 + e) / n) = if k = e + 1 then 1 else 0 := by
    intro k
    unfold N periodicKnot
    refine if_congr ?_ rfl rfl
    rw [div_le_div_iff_of_pos_right hp, div_lt_div_iff_of_pos_right hp]
    constructor
    · rintro ⟨a, b⟩
      push_cast at a b
      have a' : (k : ℝ) < ((e + 2 : Nat) : ℝ) := by push_cast; linarith
      have b' : (e : ℝ) < (k : ℝ) := by linarith
      have a'' : k < e + 2 := by exact_mod_cast a'
      have b'' : e < k := by exact_mod_cast b'
      omega
    · rintro rfl
      push_cast
      constructor <;> linarith
  show (_ - periodicKnot ℝ n 1 i) / (periodicKnot ℝ n 1 (i + 0 + 1) - periodicKnot ℝ n 1 i) * N (periodicKnot ℝ n 1) 0 i _
        + (periodicKnot ℝ n 1 (i + 0 + 2) - _) / (periodicKnot ℝ n 1 (i + 0 + 2) - periodicKnot ℝ n 1 (i + 1)) * N (periodicKnot ℝ n 1) 0 (i + 1) _ = _
  rw [key, key]
  unfold periodicKnot
  by_cases h1 : i = e
  · subst h1
    rw [if_neg (by omega), if_pos rfl, if_pos (Or.inl rfl)]
    push_cast
    field_simp
    ring
  · by_cases h2 : i = e + 1
    · subst h2
      rw [if_pos rfl, if_neg (by omega), if_pos (Or.inr rfl)]
      push_cast
      field_simp
      ring
    · rw [if_neg h2, if_neg (by omega), if_neg (by tauto)]
      ring

/-- The alternating sum of the periodic hat functions at a midpoint. -/
theorem hat_alternating {n : Nat} (hn : 0 < n) (hev : Even n) {e : Nat} (he : e < n) :
    ∑ k ∈ range n, (-1) ^ k * wrapped ℝ n 1 k ((1 / 2 + e) / n) = 0 := by
  have h2 : 2 ≤ n := by obtain ⟨m, rfl⟩ := hev; omega
  have key : ∀ k ∈ range n, (-1 : ℝ) ^ k * wrapped ℝ n 1 k ((1 / 2 + e) / n) =
      (if k = e then (-1) ^ e * (1 / 2) else 0) + (if k = (e + 1) % n then (-1) ^ (e + 1) * (1 / 2) else 0) := by
    intro k hk
    have hk' := mem_range.mp hk
    unfold wrapped
    rw [hat_mid hn, hat_mid hn]
    by_cases hl : e + 1 < n
    · rw [Nat.mod_eq_of_lt hl, if_neg (show ¬ (n + k = e ∨ n + k = e + 1) by omega), add_zero]
      by_cases h1 : k = e
      · rw [if_pos (Or.inl h1), if_pos h1, if_neg (by omega), h1, add_zero]
      · by_cases h3 : k = e + 1
        · rw [if_pos (Or.inr h3), if_neg h1, if_pos h3, h3, zero_add]
        · rw [if_neg (by tauto), if_neg h1, if_neg h3]; ring
    · have hen : e + 1 = n := by omega
      rw [hen, Nat.mod_self]
      by_cases h1 : k = e
      · rw [if_pos (Or.inl h1), if_pos h1, if_neg (by omega), if_neg (by omega), h1]; ring
      · by_cases h3 : k = 0
        · rw [if_neg (by omega), if_pos (by omega), if_neg h1, if_pos h3, h3, hev.neg_one_pow]; ring
        · rw [if_neg (by omega), if_neg (by omega), if_neg h1, if_neg h3]; ring
  rw [sum_congr rfl key, sum_add_distrib, sum_ite_eq', sum_ite_eq', if_pos (mem_range.mpr he), if_pos (mem_range.mpr (Nat.mod_lt _ hn)), pow_succ]
  ring

theorem sum_blocks (f : Nat → ℝ) (a b : Nat) : ∑ i ∈ range a, ∑ j ∈ range b, f (i * b + j) = ∑ k ∈ range (a * b), f k := by
  induction a with
  | zero => simp
  | succ a ih => rw [sum_range_succ, ih, Nat.succ_mul, sum_range_add]

variable {ns ps : Nat × Nat × Nat} {types : String × String × String} {F : V3 → V3} {polar dirichlet : Bool} {D : DeRham}

/-- **C31** (limits) linear splines in the toroidal angle, one point per element, an even number of them: the mass matrix of 0-forms is singular for every map, with or without Dirichlet conditions, polar or not. -/
theorem C31_even_one_point (hD : DeRham.mk? ns ps 1 types F polar dirichlet = .ok D) (hz : types.2.2 = "periodic") (hp1 : ps.2.2 = 1) (hev : Even ns.2.2) (h0 : 0 < ns.2.2)
    (hfine : ns.2.2 ≤ 49975) (hpol : polar = true → types.1 = "clamped" ∧ types.2.1 = "periodic" ∧ 3 ≤ ns.1) (hm : 0 < D.m0) : D.M0.det = 0 := by
  have hS := Admissible.seq hD
  obtain ⟨m0, _, _, _, hQ⟩ := Seq.mk?_inv hS
  obtain ⟨hk, hd, s0, s1, s2, d0, d1, d2⟩ := Form.mk?_inv m0
  have hk0 : D.S.L0.dims.k = 0 := by rw [hd]
  have hnz : D.S.L0.dims.nz = ns.2.2 := by rw [hd]
  have hdz : D.S.L0.dims.dz = ns.2.2 := by rw [hd]; simp [hz, Form.dsize]
  have hv : Dims.validDegree D.S.L0.dims.k := by unfold Dims.validDegree; omega
  have hw : D.S.WF := Seq.mk?_wf hS
  have hz0 := h0
  have dvd : ∀ d : Dims, d.k = 0 → d.nz = ns.2.2 → ns.2.2 ∣ d.n := by
    intro d hk a
    unfold Dims.n Dims.n1 Dims.n2 Dims.n3
    simp [hk, a]
  have hnN : ns.2.2 ∣ D.S.L0.dims.n := dvd _ hk0 hnz
  have h1 : ns.2.2 ∣ D.m0 := by
    obtain ⟨S, hS, ⟨hpo, rfl⟩ | ⟨hpo, rfl⟩⟩ := Admissible.cases' hD
    · exact (PolarOp.n_dvd h0 _ hnz hdz).2.2.2
    · have g : ∀ n, getDim n (DeRham.bcTypes dirichlet).2.2 = n := fun n => by cases dirichlet <;> simp [DeRham.bcTypes, getDim]
      exact dvd _ hk0 ((g _).trans hnz)
  have h2 : ∀ m, ∀ (r : Fin D.m0) (c : Fin D.S.L0.dims.n) (hr hc), D.E0 ⟨shiftIndex ns.2.2 m r, hr⟩ ⟨shiftIndex ns.2.2 m c, hc⟩ = D.E0 r c := by
    intro m
    obtain ⟨S, hS, ⟨hpo, rfl⟩ | ⟨hpo, rfl⟩⟩ := Admissible.cases' hD
    · obtain ⟨t1, t2, r3⟩ := hpol hpo
      have c0 : 3 ≤ S.L0.dims.nr ∧ S.L0.dims.dr ≤ S.L0.dims.nr ∧ S.L0.dims.dt = S.L0.dims.nt := by
        change S.L0.dims = _ at hd
        rw [hd, t1, t2]
        refine ⟨r3, ?_, ?_⟩ <;> simp [Form.dsize]
      exact fun r c _ _ => PolarOp.element_shift h0 _ (Or.inl hk0) hnz hdz c0.1 c0.2.1 c0.2.2 r.2 c.2
    · have t : (DeRham.bcTypes dirichlet).2.2 = "none" := by cases dirichlet <;> rfl
      have cast : ∀ {x y : Int}, x = y → (x : ℝ) = (y : ℝ) := fun e => by rw [e]
      exact fun r c _ _ => cast (BoundaryOp.element_shift h0 _ (Or.inl hk0) hnz hdz t r.2 c.2)
  obtain ⟨f, hf⟩ : ∃ f, f = D.E0ᵀ *ᵥ alternating ns.2.2 := ⟨_, rfl⟩
  have h3 : ∀ m (c : Fin D.S.L0.dims.n) (hc : shiftIndex ns.2.2 m c < D.S.L0.dims.n), f ⟨shiftIndex ns.2.2 m c, hc⟩ = (-1) ^ m * f c := fun m c hc => by
    rw [hf]; exact alternating_extract h0 hev h1 hnN D.E0 m (h2 m) c hc
  -- the rule
  rw [hz, hp1] at s2
  obtain ⟨l1, hx⟩ : D.S.Q.xz.length = ns.2.2 ∧ ∀ e < ns.2.2, D.S.Q.xz.getD e 0 = (1 / 2 + e) / (ns.2.2 : ℝ) := by
    obtain ⟨xs, ws, e1, e2, l1, l2, b, -, -⟩ := C11_select_rule (K := ℝ) ns.2.2 1 (le_refl _) "periodic" ns.2.2 (Or.inr ⟨rfl, h0, Or.inr rfl, rfl⟩) _ s2 1 (le_refl _) (by omega)
    unfold Quad.Rule.mk? at hQ
    split at hQ
    case h_2 => cases hQ
    rename_i rx ry rz hx hy hz'
    have hQ' := Except.ok.inj hQ
    rw [e1] at hz'
    have hr := Except.ok.inj hz'
    have exz : D.S.Q.xz = xs := by rw [← hQ', ← hr]; rfl
    refine ⟨by rw [exz, l1, Nat.mul_one], fun e he => ?_⟩
    obtain ⟨x, w, c1, c2, hx, hw⟩ := composite_uniform (K := ℝ) (n := ns.2.2) (k := 1) h0 (le_refl _) (by omega) (e := e) (l := 0) he (by omega)
    have hx0 : x = 0 := by
      have : (nodesAndWeights 1).1[0]? = some 0 := by decide +kernel
      rw [this] at hx
      exact (Option.some.inj hx).symm
    rw [← e2, Nat.mul_one, Nat.add_zero, hx0] at c1
    rw [exz, List.getD_eq_getElem?_getD]
    simp only [] at c1
    rw [c1, Option.getD_some]
    push_cast
    ring
  have hlam : ∀ k < ns.2.2, ∀ e < ns.2.2, D.S.lamZ.get k e = wrapped ℝ ns.2.2 1 k ((1 / 2 + e) / ns.2.2) := by
    intro k hk e he
    rw [Seq.lamZ_get hw (by rw [hnz]; exact hk) (by rw [l1]; exact he), hx e he, of_mk?_periodic (Or.inr rfl) s2]
    refine wrapped_eq (by omega) h0 hfine hk ?_
    rw [div_lt_one (by exact_mod_cast h0)]
    have : (e : ℝ) + 1 ≤ ns.2.2 := by exact_mod_cast he
    linarith
  have hzero : ∀ j k, evaluateAtXq D.S.getLambda0 f j k = 0 := by
    intro j k
    unfold evaluateAtXq
    obtain ⟨A, hA⟩ := hnN
    obtain ⟨e, he⟩ : ∃ e, e = (D.S.unravelQuad j).2.2 := ⟨_, rfl⟩
    have hel : e < ns.2.2 := by
      rw [he, ← l1]
      exact unravel3_lt (by rw [l1]; exact h0) _ _ _
    obtain ⟨g, hg⟩ : ∃ g : Nat → ℝ, g = fun i => if h : i < D.S.L0.dims.n then D.S.getLambda0 i j k * f ⟨i, h⟩ else 0 := ⟨_, rfl⟩
    have e1 : ∑ i : Fin D.S.L0.dims.n, D.S.getLambda0 i j k * f i = ∑ i ∈ range D.S.L0.dims.n, g i := by
      rw [← Fin.sum_univ_eq_sum_range]
      refine sum_congr rfl fun i _ => ?_
      rw [hg]
      simp only [i.2, dif_pos]
    rw [e1, hA, Nat.mul_comm, ← sum_blocks]
    refine sum_eq_zero fun a ha => ?_
    have ha' := mem_range.mp ha
    have hlt : ∀ c < ns.2.2, a * ns.2.2 + c < D.S.L0.dims.n := fun c hc => by
      rw [hA, Nat.mul_comm ns.2.2]
      calc a * ns.2.2 + c < a * ns.2.2 + ns.2.2 := by omega
        _ = (a + 1) * ns.2.2 := by rw [Nat.succ_mul]
        _ ≤ A * ns.2.2 := Nat.mul_le_mul_right _ ha'
    have hb := hlt 0 h0
    obtain ⟨C, hC⟩ : ∃ C, C = D.S.lamR.get (D.S.L0.dims.unravelIndex (a * ns.2.2 + 0)).2.1 (D.S.unravelQuad j).1 *
        D.S.lamT.get (D.S.L0.dims.unravelIndex (a * ns.2.2 + 0)).2.2.1 (D.S.unravelQuad j).2.1 * f ⟨a * ns.2.2 + 0, hb⟩ := ⟨_, rfl⟩
    have last : (D.S.L0.dims.unravelIndex (a * ns.2.2 + 0)).2.2.2 = 0 := by
      unfold Dims.unravelIndex Dims.vectorIndex
      simp only [hk0, true_or, if_true]
      have hn : D.S.L0.dims.n = D.S.L0.dims.nr * D.S.L0.dims.nt * D.S.L0.dims.nz := by
        unfold Dims.n Dims.n1 Dims.n2 Dims.n3
        simp [hk0]
      have hmin : min (a * ns.2.2) (D.S.L0.dims.nr * D.S.L0.dims.nt * D.S.L0.dims.nz - 1) = a * ns.2.2 := Nat.min_eq_left (by omega)
      simp [Dims.shape, Jax.unravelIndex3]
      rw [hmin, hnz, Nat.mul_mod_left]
    have e2 : ∀ c ∈ range ns.2.2, g (a * ns.2.2 + c) = C * ((-1) ^ c * wrapped ℝ ns.2.2 1 c ((1 / 2 + e) / ns.2.2)) := by
      intro c hc
      have hc' := mem_range.mp hc
      have es : shiftIndex ns.2.2 c (a * ns.2.2 + 0) = a * ns.2.2 + c := by
        rw [shiftIndex_flat h0 a h0, Nat.zero_add, Nat.mod_eq_of_lt hc']
      have hf' := h3 c ⟨a * ns.2.2 + 0, hb⟩ (by rw [es]; exact hlt c hc')
      obtain ⟨u, -⟩ := D.S.L0.dims.unravelIndex_shift (m := c) h0 hv hnz hdz hb
      rw [es, last, Nat.zero_add, Nat.mod_eq_of_lt hc'] at u
      have hf2 : f ⟨a * ns.2.2 + c, hlt c hc'⟩ = (-1) ^ c * f ⟨a * ns.2.2 + 0, hb⟩ := by rw [← hf']; congr 1; exact Fin.ext es.symm
      rw [hg]
      simp only []
      rw [dif_pos (hlt c hc'), hf2]
      unfold Seq.getLambda0
      simp only []
      rw [u, ← he, hlam c hc' e hel, hC]
      ring
    rw [sum_congr rfl e2, ← mul_sum, hat_alternating h0 hev hel, mul_zero]
  refine Matrix.exists_mulVec_eq_zero_iff.mp ⟨alternating ns.2.2, fun e => ?_, ?_⟩
  · have := congrFun e ⟨0, hm⟩
    simp [alternating] at this
  · unfold DeRham.M0
    rw [← mulVec_mulVec, ← mulVec_mulVec, ← hf]
    have hzz : assemble D.S.getLambda0 D.S.getLambda0 D.nq 1 D.W0 D.S.L0.dims.n D.S.L0.dims.n *ᵥ f =
        assemble D.S.getLambda0 D.S.getLambda0 D.nq 1 D.W0 D.S.L0.dims.n D.S.L0.dims.n *ᵥ (0 : Fin D.S.L0.dims.n → ℝ) := by
      refine assemble_mulVec_congr _ _ _ _ _ _ fun j hj k hk => ?_
      rw [hzero]
      unfold evaluateAtXq
      simp
    rw [hzz, mulVec_zero, mulVec_zero]

/-- Linear splines with one quadrature point per element: the constructor accepts them. -/
theorem linear_built (n : Nat) (hn : 2 ≤ n) (F : V3 → V3) (polar dirichlet : Bool) :
    ∃ D, DeRham.mk? (n, n, n) (1, 1, 1) 1 ("clamped", "periodic", "periodic") F polar dirichlet = .ok D := by
  have ok : ∀ ty, (ty = "clamped" ∨ ty = "periodic") → ∃ s d xw, SplineBasis.mk? (K := ℝ) n 1 ty = .ok s ∧ DerivativeSpline.mk? s = .ok d ∧ selectQuadrature s 1 = .ok xw := by
    rintro ty (rfl | rfl)
    · exact ⟨_, _, _, mk?_clamped n 1 (Or.inl (by omega)), mk?_deriv_clamped n 1 (le_refl _) (by omega), by simp only [selectQuadrature, if_true]; rfl⟩
    · exact ⟨_, _, _, mk?_periodic n 1 (Or.inl (by omega)), mk?_deriv_periodic n 1 (le_refl _) (by omega) (Or.inl (by omega)), by
        simp only [selectQuadrature, show ¬ ("periodic" = "clamped") by decide, if_false, if_true]; rfl⟩
  obtain ⟨s0, d0, x0, a0, b0, c0⟩ := ok "clamped" (Or.inl rfl)
  obtain ⟨s1, d1, x1, a1, b1, c1⟩ := ok "periodic" (Or.inr rfl)
  have hF : ∀ k : Int, Dims.validDegree k → Form.mk? k (n, n, n) (1, 1, 1) ("clamped", "periodic", "periodic") = .ok (⟨⟨k, n, n, n, Form.dsize n "clamped",
      Form.dsize n "periodic", Form.dsize n "periodic"⟩, s0, s1, s1, d0, d1, d1⟩ : Form ℝ) := by
    intro k hk
    unfold Form.mk?
    simp only [a0, a1, b0, b1]
    rw [if_pos hk]
  unfold DeRham.mk? Seq.mk?
  simp only [hF 0 (by simp [Dims.validDegree]), hF 1 (by simp [Dims.validDegree]), hF 2 (by simp [Dims.validDegree]),
    hF 3 (by simp [Dims.validDegree]), Quad.Rule.mk?, c0, c1]
  exact ⟨_, rfl⟩

/-- The space of polar 0-forms is not trivial. -/
theorem polar_m0_pos {n : Nat} (hn : 3 ≤ n) (hD : DeRham.mk? (n, n, n) (1, 1, 1) 1 ("clamped", "periodic", "periodic") F true true = .ok D) : 0 < D.m0 := by
  obtain ⟨m0, _, _, _, hQ⟩ := Seq.mk?_inv (Admissible.seq hD)
  obtain ⟨hk, hd, -⟩ := Form.mk?_inv m0
  obtain ⟨S, hS, ⟨hpo, rfl⟩ | ⟨hpo, rfl⟩⟩ := Admissible.cases' hD
  · change S.L0.dims = _ at hd
    show 0 < (PolarOp.mk S.L0.dims (getXi n) true).n
    rw [hd]
    simp [PolarOp.n, PolarOp.n1, PolarOp.n2, PolarOp.n3]
    unfold PolarOp.discSize
    exact Nat.mul_pos (by omega) (by omega)
  · cases hpo

/-- The case in hand: `toroid_poisson.py 8 1`. -/
example : ∃ D, DeRham.mk? (8, 8, 8) (1, 1, 1) 1 ("clamped", "periodic", "periodic") (toroidMap (1 / 3) 1 1) true true = .ok D ∧ D.M0.det = 0 := by
  obtain ⟨D, hD⟩ := linear_built 8 (by norm_num) (toroidMap (1 / 3) 1 1) true true
  exact ⟨D, hD, C31_even_one_point hD rfl rfl (by decide) (by norm_num) (by norm_num) (fun _ => ⟨rfl, rfl, by norm_num⟩) (polar_m0_pos (by norm_num) hD)⟩

end Mrx.Props
