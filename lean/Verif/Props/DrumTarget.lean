import Verif.Model.DrumTarget
import Verif.Props.Drum
import Verif.Props.Reproduce

/-!
# C95: the target shape and the optimisation history of `drumshape.py`
-/

set_option linter.unusedVariables false
set_option linter.unusedSectionVars false

namespace Mrx.Props
open Matrix Finset Spec Real

/-! ## The ellipse -/

theorem ellipse_den {a e : ℝ} (ha : 0 < a) (he : 0 < e) (θ : ℝ) : 0 < (a * e) ^ 2 * cos (2 * π * θ) ^ 2 + a ^ 2 * sin (2 * π * θ) ^ 2 := by
  have h1 := sin_sq_add_cos_sq (2 * π * θ)
  by_cases hc : cos (2 * π * θ) = 0
  · rw [hc] at h1 ⊢
    have : sin (2 * π * θ) ^ 2 = 1 := by linarith
    rw [this]; positivity
  · have : 0 < cos (2 * π * θ) ^ 2 := by positivity
    have : 0 ≤ a ^ 2 * sin (2 * π * θ) ^ 2 := by positivity
    positivity

/-- **C95** the target radius is that of the ellipse with semi-axes `a` (along the first axis) and `a e`: for every angle it is the only non-negative number `r` such that the
point `r (cos, sin)` lies on the ellipse. It is one-periodic, and `e = 1` gives the circle. -/
theorem C95_ellipse {a e : ℝ} (ha : 0 < a) (he : 0 < e) (θ : ℝ) :
    (∀ r, 0 ≤ r → (r = ellipseRadius a e θ ↔ (r * cos (2 * π * θ) / a) ^ 2 + (r * sin (2 * π * θ) / (a * e)) ^ 2 = 1)) ∧ 0 < ellipseRadius a e θ ∧
      ellipseRadius a e (θ + 1) = ellipseRadius a e θ ∧ ellipseRadius a 1 θ = a := by
  have hd := ellipse_den ha he θ
  have hpos : 0 < ellipseRadius a e θ := by
    unfold ellipseRadius
    positivity
  have key : ellipseRadius a e θ ^ 2 * ((a * e) ^ 2 * cos (2 * π * θ) ^ 2 + a ^ 2 * sin (2 * π * θ) ^ 2) = (a * (a * e)) ^ 2 := by
    unfold ellipseRadius
    dsimp only
    have h2 : (((a * e) ^ 2 * cos (2 * π * θ) ^ 2 + a ^ 2 * sin (2 * π * θ) ^ 2) ^ (0.5 : ℝ)) ^ 2 = (a * e) ^ 2 * cos (2 * π * θ) ^ 2 + a ^ 2 * sin (2 * π * θ) ^ 2 := by
      rw [← rpow_natCast (_ ^ (0.5 : ℝ)) 2, ← rpow_mul hd.le]
      norm_num
    rw [div_pow, h2, div_mul_cancel₀ _ hd.ne']
  have eq : ∀ r : ℝ, (r * cos (2 * π * θ) / a) ^ 2 + (r * sin (2 * π * θ) / (a * e)) ^ 2 =
      r ^ 2 * ((a * e) ^ 2 * cos (2 * π * θ) ^ 2 + a ^ 2 * sin (2 * π * θ) ^ 2) / (a * (a * e)) ^ 2 := by
    intro r
    field_simp
  refine ⟨fun r hr => ?_, hpos, ?_, ?_⟩
  · rw [eq, div_eq_one_iff_eq (by positivity), ← key]
    constructor
    · rintro rfl; rfl
    · intro h
      exact (pow_left_inj₀ hr hpos.le two_ne_zero).1 (mul_right_cancel₀ hd.ne' h)
  · unfold ellipseRadius
    dsimp only
    rw [show 2 * π * (θ + 1) = 2 * π * θ + 2 * π by ring, cos_add_two_pi, sin_add_two_pi]
  · unfold ellipseRadius
    dsimp only
    rw [mul_one, ← mul_add, cos_sq_add_sin_sq, mul_one, ← rpow_natCast, ← rpow_mul ha.le]
    norm_num

/-- Case: an ellipse with half-axes 2 and 1. -/
example := C95_ellipse (a := 2) (e := 1 / 2) (by norm_num) (by norm_num)

/-- **C95 (finding)** the parameter `e`, documented as the eccentricity, is the ratio of the axes: the eccentricity `√(1 - b²/a²)` of the target is `√(1 - e²)`, which is `e` only
for one value of `e`. -/
theorem C95_eccentricity {a e : ℝ} (ha : 0 < a) (he : 0 < e) (he1 : e ≤ 1) :
    ellipseRadius a e 0 = a ∧ ellipseRadius a e (1 / 4) = a * e ∧
      √(1 - (ellipseRadius a e (1 / 4)) ^ 2 / (ellipseRadius a e 0) ^ 2) = √(1 - e ^ 2) ∧ (√(1 - e ^ 2) = e ↔ e = √(1 / 2)) := by
  have h0 : ellipseRadius a e 0 = a := by
    refine (((C95_ellipse ha he 0).1 a ha.le).2 ?_).symm
    rw [mul_zero, cos_zero, sin_zero]; field_simp; ring
  have h1 : ellipseRadius a e (1 / 4) = a * e := by
    refine (((C95_ellipse ha he (1 / 4)).1 (a * e) (by positivity)).2 ?_).symm
    rw [show 2 * π * (1 / 4) = π / 2 by ring, cos_pi_div_two, sin_pi_div_two]; field_simp; ring
  refine ⟨h0, h1, ?_, ?_⟩
  · rw [h0, h1]
    congr 2
    field_simp
  · rw [sqrt_eq_iff_mul_self_eq_of_pos he, eq_comm (a := e), sqrt_eq_iff_mul_self_eq_of_pos he]
    constructor <;> intro h <;> linarith

example := C95_eccentricity (a := 2) (e := 1 / 2) (by norm_num) (by norm_num) (by norm_num)

/-! ## The projection onto splines -/

section
variable {nm pm : Nat} {a e : ℝ}

/-- The basis functions of the radius at any point. -/
theorem target_eval {Λmap : Form ℝ} (hm : Form.mk? 0 (nm, 1, 1) (pm, 0, 0) ("periodic", "constant", "constant") = .ok Λmap) {i : Nat} (hi' : i < nm)
    (x : ℝ × ℝ × ℝ) : Λmap.evaluate x i 0 = Λmap.Λ0.evaluate x.1 (i : Int) := by
  have hw := Form.mk?_wf hm
  obtain ⟨_, hd, s0, s1, s2, _⟩ := Form.mk?_inv hm
  have hk : Λmap.dims.k = 0 := by rw [hd]
  have e : Λmap.dims.ravelIndex 0 i 0 0 = i := by
    rw [hd]
    unfold Dims.ravelIndex Jax.ravelMultiIndex3
    simp
    omega
  have hr : Λmap.dims.InRange 0 i 0 0 := by
    rw [hd]
    unfold Dims.InRange Dims.cshape Dims.shape
    simp
    omega
  have := Λmap.evaluate_ravel hw hr x 0 (by rw [hd]; simp [Dims.shape])
  rw [e, if_pos rfl] at this
  rw [this]
  unfold Spec.basisValue Spec.factor Spec.isDeriv
  rw [hk]
  simp
  rw [C09_constant_evaluates_to_one 1 0 "constant" (Or.inl rfl) _ s1, C09_constant_evaluates_to_one 1 0 "constant" (Or.inl rfl) _ s2]
  simp

/-- The squared distance of the spline with coefficients `c` from a radius function, computed with the quadrature rule. -/
noncomputable def fitError (Λmap : Form ℝ) (Q : Quad.Rule ℝ) (radius : ℝ → ℝ) (c : Nat → ℝ) : ℝ :=
  ∑ j ∈ range Q.x.length, Q.w.getD j 0 * (radius (Q.x.getD j (0, 0, 0)).1 - drumRadius Λmap c (Q.x.getD j (0, 0, 0)).1) ^ 2

/-- What is needed of the form and the rule. -/
theorem target_setting (hp : 1 ≤ pm) (hp3 : pm ≤ 3) (hpn : pm < nm ∨ pm = 1) (hn : 1 ≤ nm) (hfine : nm ≤ 49975) :
    ∃ (Λmap : Form ℝ) (Q : Quad.Rule ℝ), Form.mk? 0 (nm, 1, 1) (pm, 0, 0) ("periodic", "constant", "constant") = .ok Λmap ∧
      Quad.Rule.mk? Λmap.Λ0 Λmap.Λ1 Λmap.Λ2 (3 * pm) = .ok Q ∧ (∀ j < Q.x.length, 0 < Q.w.getD j 0) ∧
      (∀ j < Q.x.length, 0 ≤ (Q.x.getD j (0, 0, 0)).1 ∧ (Q.x.getD j (0, 0, 0)).1 ≤ 1) ∧
      ∀ c : Nat → ℝ, (∀ j < Q.x.length, drumRadius Λmap c (Q.x.getD j (0, 0, 0)).1 = 0) → ∀ i < nm, c i = 0 := by
  have dr : DirOK nm pm (3 * pm) "periodic" := Or.inr (Or.inl ⟨rfl, hp, hpn, hn, hfine, Or.inl (by omega)⟩)
  have dc : DirOK 1 0 (3 * pm) "constant" := Or.inr (Or.inr ⟨rfl, rfl, by omega⟩)
  obtain ⟨D, h⟩ : ∃ D, Admissible (nm, 1, 1) (pm, 0, 0) (3 * pm) ("periodic", "constant", "constant") (fun y => y) false false D :=
    Admissible.exists _ _ _ (by omega) dr dc dc (by simp) fun x => by rw [jacobianDeterminant_id]; norm_num
  obtain ⟨m0, _, _, _, hQ⟩ := Seq.mk?_inv (Admissible.seq h.built)
  have hq := h.quad
  have hl := h.points_len
  refine ⟨D.S.L0, D.S.Q, m0, hQ, fun j hj => DeRham.w_pos h.core (by rw [← hl]; exact hj), ?_, ?_⟩
  · intro j hj
    have hx : D.S.Q.x.getD j (0, 0, 0) ∈ D.S.Q.x := by
      rw [List.getD_eq_getElem?_getD, List.getElem?_eq_getElem hj]; exact List.getElem_mem hj
    generalize D.S.Q.x.getD j (0, 0, 0) = x at hx ⊢
    rw [Seq.rule_isTensor hQ] at hx
    simp only [List.mem_flatMap, List.mem_map] at hx
    obtain ⟨y, _, r, hr, z, _, rfl⟩ := hx
    unfold Quad.Rule.mk? at hQ
    split at hQ
    case h_2 => cases hQ
    rename_i rx ry rz hx hy hz'
    have hQ' := Except.ok.inj hQ
    have exx : D.S.Q.xx = rx.1 := by rw [← hQ']; rfl
    obtain ⟨_, _, s0, _⟩ := Form.mk?_inv m0
    exact dir_points dr (by omega) s0 hx r (exx ▸ hr)
  · intro c hc i hi
    have hdim : D.S.L0.dims.nr = nm := by obtain ⟨_, hd, _⟩ := Form.mk?_inv m0; rw [hd]
    refine hq.r c (fun r hr => ?_) i (by rw [hdim]; exact hi)
    have ne : D.S.Q.xy ≠ [] ∧ D.S.Q.xz ≠ [] := by
      have h1 := hq.t (fun _ => 1)
      have h2 := hq.z (fun _ => 1)
      have hd : D.S.L0.dims.nt = 1 ∧ D.S.L0.dims.nz = 1 := by obtain ⟨_, hd, _⟩ := Form.mk?_inv m0; rw [hd]; exact ⟨rfl, rfl⟩
      constructor
      · intro hnil
        rw [hnil, hd.1] at h1
        exact one_ne_zero (h1 (by simp) 0 (by norm_num))
      · intro hnil
        rw [hnil, hd.2] at h2
        exact one_ne_zero (h2 (by simp) 0 (by norm_num))
    obtain ⟨y, hy⟩ := List.exists_mem_of_ne_nil _ ne.1
    obtain ⟨z, hz⟩ := List.exists_mem_of_ne_nil _ ne.2
    have hx : (r, y, z) ∈ D.S.Q.x := by
      rw [Seq.rule_isTensor hQ]
      simp only [List.mem_flatMap, List.mem_map]
      exact ⟨y, hy, r, hr, z, hz, rfl⟩
    obtain ⟨j, hj, hjx⟩ := List.getElem_of_mem hx
    have := hc j hj
    rw [List.getD_eq_getElem?_getD, List.getElem?_eq_getElem hj, Option.getD_some, hjx, drumRadius_eq m0] at this
    rw [hdim]
    exact this

/-- **C95** the target coefficients are the best fit: for admissible `n_map`, `p_map` the set-up succeeds, and among all splines the one with the coefficients `a_target` has the smallest squared
distance from the ellipse (measured with the quadrature rule), and no other coefficients do as well. -/
theorem C95_best_fit (hp : 1 ≤ pm) (hp3 : pm ≤ 3) (hpn : pm < nm ∨ pm = 1) (hn : 1 ≤ nm) (hfine : nm ≤ 49975) (a e : ℝ) :
    ∃ Λmap Q aT, setupTargetShape nm pm a e = .ok (Λmap, Q, aT) ∧
      ∀ c : Nat → ℝ, fitError Λmap Q (ellipseRadius a e) aT ≤ fitError Λmap Q (ellipseRadius a e) c ∧
        (fitError Λmap Q (ellipseRadius a e) c = fitError Λmap Q (ellipseRadius a e) aT → ∀ i < nm, c i = aT i) ∧
        ∑ j ∈ range Q.x.length, Q.w.getD j 0 * ((ellipseRadius a e (Q.x.getD j (0, 0, 0)).1 - drumRadius Λmap aT (Q.x.getD j (0, 0, 0)).1) *
          drumRadius Λmap c (Q.x.getD j (0, 0, 0)).1) = 0 := by
  obtain ⟨Λmap, Q, hm, hQ, hw, -, hz⟩ := target_setting (nm := nm) hp hp3 hpn hn hfine
  have hdn : Λmap.dims.n = nm := by
    obtain ⟨_, hd, _⟩ := Form.mk?_inv hm
    rw [hd]; simp [Dims.n, Dims.n1, Dims.n2, Dims.n3]
  obtain ⟨aT, haT⟩ : ∃ aT : Nat → ℝ, aT = fun i => if h : i < Λmap.dims.n then targetCoefs Λmap Q (ellipseRadius a e) ⟨i, h⟩ else 0 := ⟨_, rfl⟩
  obtain ⟨g, hg⟩ : ∃ g, g = targetGetter Λmap Q := ⟨_, rfl⟩
  obtain ⟨X, hX⟩ : ∃ X : Nat → ℝ, X = fun j => (Q.x.getD j (0, 0, 0)).1 := ⟨_, rfl⟩
  have hR : ∀ (c : Nat → ℝ) j, evaluateAtXq g (fun i : Fin Λmap.dims.n => c i) j 0 = drumRadius Λmap c (X j) := by
    intro c j
    rw [drumRadius_eq hm]
    unfold evaluateAtXq
    rw [hg]
    unfold targetGetter
    rw [Fin.sum_univ_eq_sum_range (fun i => Λmap.evaluate (Q.x.getD j (0, 0, 0)) i 0 * c i) Λmap.dims.n, hdn]
    refine sum_congr rfl fun i hi => ?_
    rw [target_eval hm (mem_range.1 hi), mul_comm, hX]
  have hspd : SPD (targetMass Λmap Q) := by
    unfold targetMass
    rw [← hg]
    have hW : ∀ j < Q.x.length, SPD (fun _ _ => Q.w.getD j 0 : Matrix (Fin 1) (Fin 1) ℝ) := fun j hj => DeRham.spd_one (hw j hj)
    have hp := assemble_psd (n := Λmap.dims.n) g (fun j => (fun _ _ => Q.w.getD j 0 : Matrix (Fin 1) (Fin 1) ℝ)) fun j hj => (hW j hj).psd
    refine ⟨hp.1, fun x hx => lt_of_le_of_ne (hp.2 x) fun h0 => hx ?_⟩
    have h1 := (assemble_zero_iff g (fun j => (fun _ _ => Q.w.getD j 0 : Matrix (Fin 1) (Fin 1) ℝ)) hW x).mp h0.symm
    have h2 := hz (fun i => if h : i < Λmap.dims.n then x ⟨i, h⟩ else 0) fun j hj => by
      have := h1 j hj 0 (by norm_num)
      have e2 := hR (fun i => if h : i < Λmap.dims.n then x ⟨i, h⟩ else 0) j
      rw [hX] at e2
      rw [← e2, ← this]
      congr 1
      funext i
      simp
    funext i
    have := h2 i (by rw [← hdn]; exact i.2)
    simpa using this
  have normal : ∀ c : Nat → ℝ, ∑ j ∈ range Q.x.length, Q.w.getD j 0 * ((ellipseRadius a e (X j) - drumRadius Λmap aT (X j)) * drumRadius Λmap c (X j)) = 0 := by
    intro c
    have e1 : targetMass Λmap Q *ᵥ (fun i : Fin Λmap.dims.n => aT i) =
        integrateAgainst g Q.x.length 1 (fun j _ => ellipseRadius a e (X j) * Q.w.getD j 0) Λmap.dims.n := by
      have : (fun i : Fin Λmap.dims.n => aT i) = targetCoefs Λmap Q (ellipseRadius a e) := by
        funext i
        rw [haT]
        simp
      rw [this]
      unfold targetCoefs
      rw [mulVec_mulVec, hspd.mul_inv, one_mulVec, hg, hX]
    have e2 := congrArg (fun z => (fun i : Fin Λmap.dims.n => c i) ⬝ᵥ z) e1
    beta_reduce at e2
    unfold targetMass at e2
    rw [← hg] at e2
    replace e2 := (assemble_dot g g (fun j => (fun _ _ => Q.w.getD j 0 : Matrix (Fin 1) (Fin 1) ℝ)) (fun i : Fin Λmap.dims.n => c i) (fun i : Fin Λmap.dims.n => aT i)).symm.trans e2
    have e3 : (fun i : Fin Λmap.dims.n => c i) ⬝ᵥ integrateAgainst g Q.x.length 1 (fun j _ => ellipseRadius a e (X j) * Q.w.getD j 0) Λmap.dims.n =
        ∑ j ∈ range Q.x.length, drumRadius Λmap c (X j) * (ellipseRadius a e (X j) * Q.w.getD j 0) := by
      unfold dotProduct integrateAgainst
      simp only [Fin.sum_univ_one, Finset.mul_sum]
      rw [Finset.sum_comm]
      refine sum_congr rfl fun j _ => ?_
      rw [← hR]
      unfold evaluateAtXq
      rw [Finset.sum_mul]
      refine sum_congr rfl fun i _ => ?_
      simp only [Fin.val_zero]
      ring
    rw [e3] at e2
    have e4 : ∀ j, (fun k : Fin 1 => evaluateAtXq g (fun i : Fin Λmap.dims.n => c i) j k) ⬝ᵥ
        (fun _ _ => Q.w.getD j 0 : Matrix (Fin 1) (Fin 1) ℝ) *ᵥ (fun k : Fin 1 => evaluateAtXq g (fun i : Fin Λmap.dims.n => aT i) j k) =
        drumRadius Λmap c (X j) * (Q.w.getD j 0 * drumRadius Λmap aT (X j)) := by
      intro j
      rw [← hR, ← hR]
      simp [dotProduct, mulVec]
    simp only [e4] at e2
    rw [← sub_eq_zero, ← Finset.sum_sub_distrib] at e2
    rw [← neg_eq_zero, ← Finset.sum_neg_distrib]
    exact (sum_congr rfl fun j _ => by ring).trans e2
  have lin : ∀ (c : Nat → ℝ) χ, drumRadius Λmap (fun i => c i - aT i) χ = drumRadius Λmap c χ - drumRadius Λmap aT χ := by
    intro c χ
    rw [drumRadius_eq hm, drumRadius_eq hm, drumRadius_eq hm, ← Finset.sum_sub_distrib]
    exact sum_congr rfl fun i _ => by ring
  have pyth : ∀ c : Nat → ℝ, fitError Λmap Q (ellipseRadius a e) c = fitError Λmap Q (ellipseRadius a e) aT +
      ∑ j ∈ range Q.x.length, Q.w.getD j 0 * drumRadius Λmap (fun i => c i - aT i) (X j) ^ 2 := by
    intro c
    have n := normal fun i => c i - aT i
    unfold fitError
    have : ∑ j ∈ range Q.x.length, Q.w.getD j 0 * (ellipseRadius a e (Q.x.getD j (0, 0, 0)).1 - drumRadius Λmap c (Q.x.getD j (0, 0, 0)).1) ^ 2 =
        ∑ j ∈ range Q.x.length, (Q.w.getD j 0 * (ellipseRadius a e (Q.x.getD j (0, 0, 0)).1 - drumRadius Λmap aT (Q.x.getD j (0, 0, 0)).1) ^ 2 +
          Q.w.getD j 0 * drumRadius Λmap (fun i => c i - aT i) (X j) ^ 2 -
          2 * (Q.w.getD j 0 * ((ellipseRadius a e (X j) - drumRadius Λmap aT (X j)) * drumRadius Λmap (fun i => c i - aT i) (X j)))) := by
      refine sum_congr rfl fun j _ => ?_
      rw [lin, hX]
      ring
    rw [this, Finset.sum_sub_distrib, Finset.sum_add_distrib, ← Finset.mul_sum, n, mul_zero, sub_zero]
  refine ⟨Λmap, Q, aT, ?_, fun c => ⟨?_, ?_, ?_⟩⟩
  · unfold setupTargetShape
    rw [hm]
    dsimp only
    rw [hQ, haT]
  · rw [pyth c]
    have : 0 ≤ ∑ j ∈ range Q.x.length, Q.w.getD j 0 * drumRadius Λmap (fun i => c i - aT i) (X j) ^ 2 :=
      sum_nonneg fun j hj => mul_nonneg (hw j (mem_range.1 hj)).le (sq_nonneg _)
    linarith
  · intro heq i hi
    rw [pyth c, add_eq_left, sum_eq_zero_iff_of_nonneg fun j hj => mul_nonneg (hw j (mem_range.1 hj)).le (sq_nonneg _)] at heq
    have := hz (fun i => c i - aT i) (fun j hj => by
      have h1 := heq j (mem_range.2 hj)
      rw [hX] at h1
      exact pow_eq_zero_iff two_ne_zero |>.1 ((mul_eq_zero.1 h1).resolve_left (hw j hj).ne')) i hi
    exact sub_eq_zero.1 this
  · have := normal c
    rw [hX] at this
    exact this

/-- Case: the script's 8 splines of degree 3. -/
example := C95_best_fit (nm := 8) (pm := 3) (by norm_num) (by norm_num) (Or.inl (by norm_num)) (by norm_num) (by norm_num) 2 (1 / 2)

/-- **C95** a circle is represented exactly: all target coefficients are the radius. The mean radius of the target is that of the ellipse (both by quadrature). -/
theorem C95_circle_and_mean (hp : 1 ≤ pm) (hp3 : pm ≤ 3) (hpn : pm < nm ∨ pm = 1) (hn : 1 ≤ nm) (hfine : nm ≤ 49975) {a : ℝ} (ha : 0 < a) (e : ℝ) :
    (∃ Λmap Q aT, setupTargetShape nm pm a 1 = .ok (Λmap, Q, aT) ∧ ∀ i < nm, aT i = a) ∧
      ∃ Λmap Q aT, setupTargetShape nm pm a e = .ok (Λmap, Q, aT) ∧
        ∑ j ∈ range Q.x.length, Q.w.getD j 0 * drumRadius Λmap aT (Q.x.getD j (0, 0, 0)).1 =
          ∑ j ∈ range Q.x.length, Q.w.getD j 0 * ellipseRadius a e (Q.x.getD j (0, 0, 0)).1 := by
  obtain ⟨Λ', Q', hm, hQ, hw, h01, hz⟩ := target_setting (nm := nm) hp hp3 hpn hn hfine
  have hone : ∀ (t : ℝ) j, j < Q'.x.length → drumRadius Λ' (fun _ => t) (Q'.x.getD j (0, 0, 0)).1 = t := by
    intro t j hj
    obtain ⟨_, _, s0, _⟩ := Form.mk?_inv hm
    rw [drumRadius_eq hm, ← Finset.mul_sum, C02_periodic_partition_of_unity nm pm hp hn hpn hfine _ s0 _ (h01 j hj).1 (h01 j hj).2, mul_one]
  have same : ∀ {e' : ℝ} {Λmap Q aT}, setupTargetShape nm pm a e' = .ok (Λmap, Q, aT) → Λmap = Λ' ∧ Q = Q' := by
    intro e' Λmap Q aT h
    unfold setupTargetShape at h
    rw [hm] at h
    dsimp only at h
    rw [hQ] at h
    have := Except.ok.inj h
    exact ⟨(congrArg Prod.fst this).symm, (congrArg (fun z => z.2.1) this).symm⟩
  constructor
  · obtain ⟨Λmap, Q, aT, h1, h2⟩ := C95_best_fit (nm := nm) hp hp3 hpn hn hfine a 1
    refine ⟨Λmap, Q, aT, h1, fun i hi => ?_⟩
    obtain ⟨rfl, rfl⟩ := same h1
    obtain ⟨m1, m2, -⟩ := h2 fun _ => a
    have z : fitError Λmap Q (ellipseRadius a 1) (fun _ => a) = 0 := by
      unfold fitError
      refine sum_eq_zero fun j hj => ?_
      rw [hone a j (mem_range.1 hj), (C95_ellipse ha one_pos _).2.2.2]
      ring
    have z2 : 0 ≤ fitError Λmap Q (ellipseRadius a 1) aT := sum_nonneg fun j hj => mul_nonneg (hw j (mem_range.1 hj)).le (sq_nonneg _)
    exact (m2 (by linarith) i hi).symm
  · obtain ⟨Λmap, Q, aT, h1, h2⟩ := C95_best_fit (nm := nm) hp hp3 hpn hn hfine a e
    refine ⟨Λmap, Q, aT, h1, ?_⟩
    obtain ⟨rfl, rfl⟩ := same h1
    have m3 := (h2 fun _ => 1).2.2
    have m4 : ∑ j ∈ range Q.x.length, Q.w.getD j 0 * ellipseRadius a e (Q.x.getD j (0, 0, 0)).1 -
        ∑ j ∈ range Q.x.length, Q.w.getD j 0 * drumRadius Λmap aT (Q.x.getD j (0, 0, 0)).1 = 0 := by
      rw [← Finset.sum_sub_distrib]
      refine (sum_congr rfl fun j hj => ?_).trans m3
      rw [hone 1 j (mem_range.1 hj)]
      ring
    linarith

end

/-! ## The optimisation loop -/

/-- The iterates of the optimiser alone. -/
def optIterate {P O : Type} (upd : P → O → P × O) (a0 : P) (o0 : O) : Nat → P × O
  | 0 => (a0, o0)
  | k + 1 => upd (optIterate upd a0 o0 k).1 (optIterate upd a0 o0 k).2

/-- **C95** what a run records: the shape after `N` steps is the `N`-th iterate. The loss history has `N + 1` entries; the first is the loss of the start, and entry `k ≥ 1` is the loss of iterate
`k - 1` (the start is recorded twice). The pictures carry the right iteration number and shape. -/
theorem C95_history {P O : Type} (loss : P → ℝ) (upd : P → O → P × O) {plotEvery : Nat} (hpe : 0 < plotEvery) (a0 : P) (o0 : O) (N : Nat) :
    (DrumRun.run loss upd plotEvery a0 o0 N).aHat = (optIterate upd a0 o0 N).1 ∧
      (DrumRun.run loss upd plotEvery a0 o0 N).losses = (List.range (N + 1)).map (fun k => loss (optIterate upd a0 o0 (k - 1)).1) ∧
      (∀ k b l, (k, b, l) ∈ (DrumRun.run loss upd plotEvery a0 o0 N).plots ↔ k ≤ N ∧ plotEvery ∣ k ∧ b = (optIterate upd a0 o0 k).1 ∧
        l = (List.range (k + 1)).map fun i => loss (optIterate upd a0 o0 (i - 1)).1) := by
  have key : ∀ N, (DrumRun.run loss upd plotEvery a0 o0 N).opt = (optIterate upd a0 o0 N).2 ∧
      (DrumRun.run loss upd plotEvery a0 o0 N).aHat = (optIterate upd a0 o0 N).1 ∧
      (DrumRun.run loss upd plotEvery a0 o0 N).losses = (List.range (N + 1)).map (fun k => loss (optIterate upd a0 o0 (k - 1)).1) ∧
      (∀ k b l, (k, b, l) ∈ (DrumRun.run loss upd plotEvery a0 o0 N).plots ↔ k ≤ N ∧ plotEvery ∣ k ∧ b = (optIterate upd a0 o0 k).1 ∧
        l = (List.range (k + 1)).map fun i => loss (optIterate upd a0 o0 (i - 1)).1) := by
    intro N
    induction N with
    | zero =>
      refine ⟨rfl, rfl, rfl, fun k b l => ?_⟩
      show (k, b, l) ∈ [((0 : Nat), a0, [loss a0])] ↔ _
      rw [List.mem_singleton, Prod.mk.injEq, Prod.mk.injEq]
      constructor
      · rintro ⟨rfl, rfl, rfl⟩; exact ⟨le_refl _, dvd_zero _, rfl, rfl⟩
      · rintro ⟨h1, _, h3, h4⟩
        obtain rfl : k = 0 := by omega
        exact ⟨rfl, h3, h4⟩
    | succ N ih =>
      obtain ⟨i1, i2, i3, i4⟩ := ih
      have hs : DrumRun.run loss upd plotEvery a0 o0 (N + 1) = DrumRun.step loss upd plotEvery (DrumRun.run loss upd plotEvery a0 o0 N) N := by
        unfold DrumRun.run
        rw [List.range_succ, List.foldl_append]
        rfl
      rw [hs]
      have hl : (DrumRun.run loss upd plotEvery a0 o0 N).losses ++ [loss (DrumRun.run loss upd plotEvery a0 o0 N).aHat] =
          (List.range (N + 1 + 1)).map (fun k => loss (optIterate upd a0 o0 (k - 1)).1) := by
        rw [i3, i2, List.range_succ (n := N + 1), List.map_append]
        rfl
      have ha : (upd (DrumRun.run loss upd plotEvery a0 o0 N).aHat (DrumRun.run loss upd plotEvery a0 o0 N).opt) = optIterate upd a0 o0 (N + 1) := by
        rw [i1, i2]; rfl
      refine ⟨?_, ?_, hl, fun k b l => ?_⟩
      · show (upd _ _).2 = _
        rw [ha]
      · show (upd _ _).1 = _
        rw [ha]
      · show (k, b, l) ∈ (if (N + 1) % plotEvery = 0 then _ ++ [(N + 1, (upd _ _).1, _ ++ [_])] else _) ↔ _
        rw [ha, hl]
        by_cases hd : (N + 1) % plotEvery = 0
        · rw [if_pos hd, List.mem_append, i4, List.mem_singleton, Prod.mk.injEq, Prod.mk.injEq]
          constructor
          · rintro (⟨h1, h2⟩ | ⟨rfl, rfl, rfl⟩)
            · exact ⟨by omega, h2⟩
            · exact ⟨le_refl _, Nat.dvd_of_mod_eq_zero hd, rfl, rfl⟩
          · rintro ⟨h1, h2, h3, h4⟩
            by_cases hk : k ≤ N
            · exact .inl ⟨hk, h2, h3, h4⟩
            · obtain rfl : k = N + 1 := by omega
              exact .inr ⟨rfl, h3, h4⟩
        · rw [if_neg hd, i4]
          constructor
          · rintro ⟨h1, h2⟩; exact ⟨by omega, h2⟩
          · rintro ⟨h1, h2, h3⟩
            refine ⟨?_, h2, h3⟩
            by_contra hk
            obtain rfl : k = N + 1 := by omega
            exact hd (Nat.mod_eq_zero_of_dvd h2)
  exact (key N).2

/-- **C95 (finding)** the "Final Loss" printed at the end is not the loss of the final shape but that of the shape one step earlier, and so is the last point of the loss curve. -/
theorem C95_final_loss_stale {P O : Type} (loss : P → ℝ) (upd : P → O → P × O) {plotEvery : Nat} (hpe : 0 < plotEvery) (a0 : P) (o0 : O) (N : Nat) :
    (DrumRun.run loss upd plotEvery a0 o0 (N + 1)).value = some (loss (optIterate upd a0 o0 N).1) ∧
      (DrumRun.run loss upd plotEvery a0 o0 (N + 1)).losses.getLast? = some (loss (optIterate upd a0 o0 N).1) ∧
      (DrumRun.run loss upd plotEvery a0 o0 (N + 1)).aHat = (optIterate upd a0 o0 (N + 1)).1 := by
  obtain ⟨h1, h2, _⟩ := C95_history loss upd hpe a0 o0 N
  have hs : DrumRun.run loss upd plotEvery a0 o0 (N + 1) = DrumRun.step loss upd plotEvery (DrumRun.run loss upd plotEvery a0 o0 N) N := by
    unfold DrumRun.run
    rw [List.range_succ, List.foldl_append]
    rfl
  obtain ⟨h3, h4, _⟩ := C95_history loss upd hpe a0 o0 (N + 1)
  refine ⟨?_, ?_, h3⟩
  · rw [hs, ← h1]; rfl
  · rw [h4, List.range_succ, List.map_append]
    simp

/-- The parameters of the script satisfy the hypotheses, and the loop with halving as optimiser ends at `1/4` after two steps, printing the loss of `1/2`. -/
example : (∃ Λmap Q aT, setupTargetShape 8 3 1 1 = .ok (Λmap, Q, aT) ∧ ∀ i < 8, aT i = 1) ∧
    (DrumRun.run (fun x : ℝ => x ^ 2) (fun x (_ : Unit) => (x / 2, ())) 10 1 () 2).aHat = 1 / 4 ∧
    (DrumRun.run (fun x : ℝ => x ^ 2) (fun x (_ : Unit) => (x / 2, ())) 10 1 () 2).value = some (1 / 4) := by
  refine ⟨(C95_circle_and_mean (nm := 8) (pm := 3) (by norm_num) (by norm_num) (by norm_num) (by norm_num) (by norm_num) one_pos 1).1, ?_, ?_⟩
  · rw [(C95_history _ _ (by norm_num) _ _ 2).1]
    simp only [optIterate]
    norm_num
  · rw [(C95_final_loss_stale _ _ (by norm_num) _ _ 1).1]
    simp only [optIterate]
    norm_num

end Mrx.Props
