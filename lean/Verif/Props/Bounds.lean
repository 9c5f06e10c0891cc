import Verif.Props.Polar
import Verif.Props.SplineSpace
import Verif.Props.Forms

/-!
# C88: coefficients bound the function

The values of a discrete function lie between the smallest and the largest coefficient; non-negative
coefficients of 0-forms and 3-forms give non-negative functions.
-/

set_option linter.unusedSectionVars false

namespace Mrx.Props
open Finset Mrx.Spec Mrx Matrix

section generic
variable {K : Type*} [Field K] [LinearOrder K] [IsStrictOrderedRing K]

theorem convex_bounds {n : Nat} {w : Nat → K} (hw : ∀ i < n, 0 ≤ w i) (h1 : ∑ i ∈ range n, w i = 1) (c : Nat → K) (m M : K)
    (hc : ∀ i < n, m ≤ c i ∧ c i ≤ M) : m ≤ ∑ i ∈ range n, c i * w i ∧ ∑ i ∈ range n, c i * w i ≤ M := by
  constructor
  · calc m = ∑ i ∈ range n, m * w i := by rw [← mul_sum, h1, mul_one]
      _ ≤ _ := sum_le_sum fun i hi => mul_le_mul_of_nonneg_right (hc i (mem_range.mp hi)).1 (hw i (mem_range.mp hi))
  · calc _ ≤ ∑ i ∈ range n, M * w i := sum_le_sum fun i hi => mul_le_mul_of_nonneg_right (hc i (mem_range.mp hi)).2 (hw i (mem_range.mp hi))
      _ = M := by rw [← mul_sum, h1, mul_one]

/-- **C88** A clamped spline function lies between its smallest and its largest coefficient. -/
theorem C88_clamped_range (n p : Nat) (h : p < n) (hfine : n - p ≤ 99900)
    (s : SplineBasis K) (hs : SplineBasis.mk? n p "clamped" = .ok s) (c : Nat → K) (m M : K)
    (hc : ∀ i < n, m ≤ c i ∧ c i ≤ M) (x : K) (h0 : 0 ≤ x) (h1 : x ≤ 1) :
    m ≤ ∑ i ∈ range n, c i * s.evaluate x (i : Int) ∧ ∑ i ∈ range n, c i * s.evaluate x (i : Int) ≤ M :=
  convex_bounds (fun i hi => (C03_clamped_bounds n p h hfine s hs x h0 h1 i hi).1) (C01_clamped_partition_of_unity n p h hfine s hs x h0 h1) c m M hc

/-- Case: 5 clamped splines of degree 2 and the coefficients 0, …, 4. -/
example := C88_clamped_range (K := ℚ) 5 2 (by norm_num) (by norm_num) _ (show SplineBasis.mk? 5 2 "clamped" = .ok _ from rfl) (fun i => i) 0 4
  (by intro i hi; exact ⟨by positivity, by exact_mod_cast Nat.lt_succ_iff.mp hi⟩)

/-- **C88** A periodic spline function lies between its smallest and its largest coefficient. -/
theorem C88_periodic_range (n p : Nat) (hp : 1 ≤ p) (hn : 1 ≤ n) (h : p < n ∨ p = 1) (hfine : n ≤ 49975)
    (s : SplineBasis K) (hs : SplineBasis.mk? n p "periodic" = .ok s) (c : Nat → K) (m M : K)
    (hc : ∀ i < n, m ≤ c i ∧ c i ≤ M) (x : K) (h0 : 0 ≤ x) (h1 : x ≤ 1) :
    m ≤ ∑ i ∈ range n, c i * s.evaluate x (i : Int) ∧ ∑ i ∈ range n, c i * s.evaluate x (i : Int) ≤ M :=
  convex_bounds (fun i hi => (C03_periodic_bounds n p hp hn h hfine s hs x h0 h1 i hi).1) (C02_periodic_partition_of_unity n p hp hn h hfine s hs x h0 h1) c m M hc

/-- Case: 5 periodic splines of degree 2 and the coefficients 0, …, 4. -/
example := C88_periodic_range (K := ℚ) 5 2 (by norm_num) (by norm_num) (Or.inl (by norm_num)) (by norm_num) _ (show SplineBasis.mk? 5 2 "periodic" = .ok _ from rfl) (fun i => i) 0 4
  (by intro i hi; exact ⟨by positivity, by exact_mod_cast Nat.lt_succ_iff.mp hi⟩)

/-- **C88** Locally: at `x` only the coefficients of the splines that are not zero there matter. -/
theorem C88_clamped_local_range (n p : Nat) (h : p < n) (hfine : n - p ≤ 99900)
    (s : SplineBasis K) (hs : SplineBasis.mk? n p "clamped" = .ok s) (c : Nat → K) (m M : K) (x : K) (h0 : 0 ≤ x) (h1 : x ≤ 1)
    (hc : ∀ i < n, Jax.get s.T i ≤ x → x ≤ Jax.get s.T (i + p + 1 : Nat) → m ≤ c i ∧ c i ≤ M) :
    m ≤ ∑ i ∈ range n, c i * s.evaluate x (i : Int) ∧ ∑ i ∈ range n, c i * s.evaluate x (i : Int) ≤ M := by
  have key : ∀ i ∈ range n, c i * s.evaluate x (i : Int)
      = (if Jax.get s.T i ≤ x ∧ x ≤ Jax.get s.T (i + p + 1 : Nat) then c i else (m + M) / 2) * s.evaluate x (i : Int) := by
    intro i hi
    split_ifs with hx
    · rfl
    · have : x < Jax.get s.T i ∨ Jax.get s.T (i + p + 1 : Nat) < x := by
        by_contra hcon
        push Not at hcon
        exact hx hcon
      rw [C04_clamped_support n p h hfine s hs x i (mem_range.mp hi) this, mul_zero, mul_zero]
  rw [sum_congr rfl key]
  by_cases hmM : m ≤ M
  · refine C88_clamped_range n p h hfine s hs _ m M (fun i hi => ?_) x h0 h1
    beta_reduce
    split_ifs with hx
    · exact hc i hi hx.1 hx.2
    · constructor <;> linarith
  · exfalso
    have hsum := C01_clamped_partition_of_unity n p h hfine s hs x h0 h1
    have hz : ∑ i ∈ range n, s.evaluate x (i : Int) = 0 := by
      refine sum_eq_zero fun i hi => ?_
      refine C04_clamped_support n p h hfine s hs x i (mem_range.mp hi) ?_
      by_contra hcon
      push Not at hcon
      have := hc i (mem_range.mp hi) hcon.1 hcon.2
      exact hmM (this.1.trans this.2)
    rw [hz] at hsum
    exact zero_ne_one hsum

/-- Case: at any point, with the bounds of all coefficients. -/
example := C88_clamped_local_range (K := ℚ) 5 2 (by norm_num) (by norm_num) _ (show SplineBasis.mk? 5 2 "clamped" = .ok _ from rfl) (fun i => i) 0 4 (1 / 3) (by norm_num) (by norm_num)
  (by intro i hi _ _; exact ⟨by positivity, by exact_mod_cast Nat.lt_succ_iff.mp hi⟩)

end generic

/-! ## Forms -/

theorem AngularUnity.nonneg {n p : Nat} {ty : String} (h : AngularUnity n p ty) {s : SplineBasis ℝ}
    (hs : SplineBasis.mk? n p ty = .ok s) (x : ℝ) (h0 : 0 ≤ x) (h1 : x ≤ 1) (i : Nat) (hi : i < n) : 0 ≤ s.evaluate x (i : Int) := by
  rcases h with ⟨rfl, a, b, c, d⟩ | ⟨rfl, rfl⟩ | ⟨rfl, a, b⟩
  · exact (C03_periodic_bounds n p a c b d s hs x h0 h1 i hi).1
  · have ht := (Form.spline_mk?_ok hs).2.2
    simp [SplineBasis.evaluate, ht]
  · exact (C03_clamped_bounds n p a b s hs x h0 h1 i hi).1

theorem AngularUnity.deriv_nonneg {n p : Nat} {ty : String} (h : AngularUnity n p ty) {s : SplineBasis ℝ}
    (hs : SplineBasis.mk? n p ty = .ok s) {d : DerivativeSpline ℝ} (hd : DerivativeSpline.mk? s = .ok d) (x : ℝ) (h0 : 0 ≤ x) (h1 : x < 1)
    (i : Nat) (hi : i < Form.dsize n ty) : 0 ≤ d.evaluate x (i : Int) := by
  rcases h with ⟨rfl, a, b, c, e⟩ | ⟨rfl, rfl⟩ | ⟨rfl, a, b⟩
  · have hi' : i < n := by simpa [Form.dsize] using hi
    rw [periodic_derivative_values n p a c b e s hs d hd x i hi']
    have hm := (strictMono_periodicKnot (K := ℝ) n p c).monotone
    refine mul_nonneg (Nat.cast_nonneg _) ?_
    split_ifs
    · exact add_nonneg (N_nonneg hm _ _ _) (N_nonneg hm _ _ _)
    · exact N_nonneg hm _ _ _
  · have ht : d.type = "constant" := by
      have h1 := (Form.spline_mk?_ok hs).2.2
      unfold DerivativeSpline.mk? at hd
      simp only at hd
      rw [if_neg (by rw [h1]; simp)] at hd
      split at hd
      · cases hd
      · cases hd; exact h1
    unfold DerivativeSpline.evaluate
    rw [ht, if_neg (by decide), if_neg (by decide)]
    exact zero_le_one
  · have hp : 1 ≤ p := by
      by_contra hc
      have : p = 0 := by omega
      subst this
      rw [of_mk?_clamped a hs] at hd
      simp [DerivativeSpline.mk?] at hd
    rw [C08_clamped_derivative_values n p hp a b s hs d hd x h1.ne i]
    split_ifs with h2
    · have := clamped_gap_pos n p i hp a h2
      exact div_nonneg (mul_nonneg (Nat.cast_nonneg _) (N_nonneg (monotone_clampedKnot n p a) _ _ _)) this.le
    · exact le_rfl

/-- The three 1-D bases are ones whose functions sum to one. -/
def UnityBases (ns ps : Nat × Nat × Nat) (types : String × String × String) : Prop :=
  AngularUnity ns.1 ps.1 types.1 ∧ AngularUnity ns.2.1 ps.2.1 types.2.1 ∧ AngularUnity ns.2.2 ps.2.2 types.2.2

/-- The logical cube and its interior side `[0,1)³`. -/
def InCube (x : ℝ × ℝ × ℝ) : Prop := (0 ≤ x.1 ∧ x.1 ≤ 1) ∧ (0 ≤ x.2.1 ∧ x.2.1 ≤ 1) ∧ (0 ≤ x.2.2 ∧ x.2.2 ≤ 1)
def InOpenCube (x : ℝ × ℝ × ℝ) : Prop := (0 ≤ x.1 ∧ x.1 < 1) ∧ (0 ≤ x.2.1 ∧ x.2.1 < 1) ∧ (0 ≤ x.2.2 ∧ x.2.2 < 1)

/-- Values of 0-form basis functions. -/
theorem evaluate_nonneg_zero (ns ps : Nat × Nat × Nat) (types : String × String × String) (f : Form ℝ)
    (hf : Form.mk? 0 ns ps types = .ok f) (hu : UnityBases ns ps types) (x : ℝ × ℝ × ℝ) (hx : InCube x) (i : Nat) (hi : i < f.dims.n) :
    0 ≤ f.evaluate x i 0 := by
  obtain ⟨hk, hd, s0, s1, s2, _⟩ := Form.mk?_inv hf
  have hk0 : f.dims.k = 0 := by rw [hd]
  have hl : 0 < f.dims.shape.length := by simp [Dims.shape, hk0]
  have hw := Form.mk?_wf hf
  obtain ⟨hr, _⟩ := f.dims.unravelIndex_inRange hw.k hi
  obtain ⟨c, a, b, l, he, hv⟩ := C18_single_component 0 ns ps types f hf i hi x 0 hl
  rw [he] at hr
  rw [hv]
  split_ifs with hc
  swap
  · exact le_rfl
  subst hc
  have e0 : f.dims.cshape 0 = (ns.1, ns.2.1, ns.2.2) := by
    simp only [Dims.cshape, Dims.shape, hk0, if_true]; rw [hd]; rfl
  unfold Dims.InRange at hr
  rw [e0] at hr
  simp only [basisValue, isDeriv, hk0, factor]
  simp
  obtain ⟨u0, u1, u2⟩ := hu
  obtain ⟨x0, x1, x2⟩ := hx
  exact mul_nonneg (mul_nonneg (u0.nonneg s0 x.1 x0.1 x0.2 a hr.1) (u1.nonneg s1 x.2.1 x1.1 x1.2 b hr.2.1)) (u2.nonneg s2 x.2.2 x2.1 x2.2 l hr.2.2)

theorem evaluate_nonneg_three (ns ps : Nat × Nat × Nat) (types : String × String × String) (f : Form ℝ)
    (hf : Form.mk? 3 ns ps types = .ok f) (hu : UnityBases ns ps types) (x : ℝ × ℝ × ℝ) (hx : InOpenCube x) (i : Nat) (hi : i < f.dims.n) :
    0 ≤ f.evaluate x i 0 := by
  obtain ⟨hk, hd, s0, s1, s2, d0, d1, d2⟩ := Form.mk?_inv hf
  have hk0 : f.dims.k = 3 := by rw [hd]
  have hl : 0 < f.dims.shape.length := by simp [Dims.shape, hk0]
  have hw := Form.mk?_wf hf
  obtain ⟨hr, _⟩ := f.dims.unravelIndex_inRange hw.k hi
  obtain ⟨c, a, b, l, he, hv⟩ := C18_single_component 3 ns ps types f hf i hi x 0 hl
  rw [he] at hr
  rw [hv]
  split_ifs with hc
  swap
  · exact le_rfl
  subst hc
  have e0 : f.dims.cshape 0 = (Form.dsize ns.1 types.1, Form.dsize ns.2.1 types.2.1, Form.dsize ns.2.2 types.2.2) := by
    simp only [Dims.cshape, Dims.shape, hk0]; rw [hd]; rfl
  unfold Dims.InRange at hr
  rw [e0] at hr
  simp only [basisValue, isDeriv, hk0, factor]
  simp
  obtain ⟨u0, u1, u2⟩ := hu
  obtain ⟨x0, x1, x2⟩ := hx
  exact mul_nonneg (mul_nonneg (u0.deriv_nonneg s0 d0 x.1 x0.1 x0.2 a hr.1) (u1.deriv_nonneg s1 d1 x.2.1 x1.1 x1.2 b hr.2.1)) (u2.deriv_nonneg s2 d2 x.2.2 x2.1 x2.2 l hr.2.2)

theorem discrete_nonneg {m : Nat} (f : Form ℝ) (E : Matrix (Fin m) (Fin f.dims.n) ℝ) (hE : ∀ a i, 0 ≤ E a i) (u : Fin m → ℝ) (hu : ∀ a, 0 ≤ u a)
    (x : ℝ × ℝ × ℝ) (hx : ∀ i < f.dims.n, 0 ≤ f.evaluate x i 0) : 0 ≤ discreteFunction f u E x 0 := by
  rw [C18_discrete_function_value]
  exact sum_nonneg fun i _ => mul_nonneg (sum_nonneg fun a _ => mul_nonneg (hu a) (hE a i)) (hx i i.2)

theorem xi_nonneg (nt p i j : Nat) : 0 ≤ (getXi nt).get p i j := by
  have sq : Real.sqrt 3 ^ 2 = 3 := Real.sq_sqrt (by norm_num)
  have cs : ∀ t : ℝ, -1 ≤ -1 / 2 * Real.cos t + Real.sqrt 3 / 2 * Real.sin t ∧ -1 ≤ -1 / 2 * Real.cos t - Real.sqrt 3 / 2 * Real.sin t := by
    intro t
    have h1 := Real.sin_sq_add_cos_sq t
    constructor
    · refine (abs_le.mp (abs_le_of_sq_le_sq (a := -1 / 2 * Real.cos t + Real.sqrt 3 / 2 * Real.sin t) (b := 1) ?_ zero_le_one)).1
      nlinarith [sq_nonneg (Real.sqrt 3 / 2 * Real.cos t + 1 / 2 * Real.sin t)]
    · refine (abs_le.mp (abs_le_of_sq_le_sq (a := -1 / 2 * Real.cos t - Real.sqrt 3 / 2 * Real.sin t) (b := 1) ?_ zero_le_one)).1
      nlinarith [sq_nonneg (Real.sqrt 3 / 2 * Real.cos t - 1 / 2 * Real.sin t)]
  unfold Xi.get getXi
  simp only
  split_ifs
  · norm_num
  · have := Real.neg_one_le_cos (thetaJs nt (min j (nt - 1)))
    linarith
  · have := (cs (thetaJs nt (min j (nt - 1)))).1
    linarith
  · have := (cs (thetaJs nt (min j (nt - 1)))).2
    linarith

theorem polar_matrix_nonneg (d : Dims) (nt : Nat) (b : Bool) (hk : d.k = 0 ∨ d.k = 3) (a : Fin (PolarOp.mk d (getXi nt) b).n) (i : Fin d.n) :
    0 ≤ (PolarOp.mk d (getXi nt) b).matrix a i := by
  show 0 ≤ (PolarOp.mk d (getXi nt) b).element a i
  unfold PolarOp.element
  rcases hk with hk | hk
  · simp only [hk, if_true]
    split_ifs
    · unfold PolarOp.innerZeroform
      refine mul_nonneg (mul_nonneg ?_ ?_) (xi_nonneg _ _ _ _) <;> split_ifs <;> norm_num
    · unfold PolarOp.outerZeroform
      refine mul_nonneg ?_ ?_ <;> split_ifs <;> norm_num
  · simp only [hk]
    norm_num
    unfold PolarOp.threeform
    simp only
    split_ifs <;> norm_num

theorem boundary_matrix_nonneg (B : BoundaryOp) (a : Fin B.rowDims.n) (i : Fin B.Λ.n) : 0 ≤ B.matrix a i := by
  show (0 : ℝ) ≤ ((B.element a i : Int) : ℝ)
  rw [← Int.cast_zero, Int.cast_le]
  unfold BoundaryOp.element
  simp only
  split_ifs <;> norm_num

/-- **C88** Non-negative coefficients of a polar 0-form, with or without Dirichlet condition, give a
non-negative function. -/
theorem C88_polar_zeroform_nonneg (ns ps : Nat × Nat × Nat) (types : String × String × String) (f : Form ℝ)
    (hf : Form.mk? 0 ns ps types = .ok f) (hu : UnityBases ns ps types) (dirichlet : Bool)
    (u : Fin (PolarOp.mk f.dims (getXi ns.2.1) dirichlet).n → ℝ) (h : ∀ a, 0 ≤ u a) (x : ℝ × ℝ × ℝ) (hx : InCube x) :
    0 ≤ discreteFunction f u (PolarOp.mk f.dims (getXi ns.2.1) dirichlet).matrix x 0 :=
  discrete_nonneg f _ (polar_matrix_nonneg f.dims _ dirichlet (Or.inl (by rw [(Form.mk?_inv hf).2.1]))) u h x
    fun i hi => evaluate_nonneg_zero ns ps types f hf hu x hx i hi

/-- **C88** The same for the Dirichlet operator of a non-polar sequence. -/
theorem C88_boundary_zeroform_nonneg (ns ps : Nat × Nat × Nat) (types : String × String × String) (f : Form ℝ)
    (hf : Form.mk? 0 ns ps types = .ok f) (hu : UnityBases ns ps types) (B : BoundaryOp) (hB : B.Λ = f.dims)
    (E : Matrix (Fin B.rowDims.n) (Fin f.dims.n) ℝ) (hE : ∀ a i, E a i = B.matrix a (Fin.cast (by rw [hB]) i))
    (u : Fin B.rowDims.n → ℝ) (h : ∀ a, 0 ≤ u a) (x : ℝ × ℝ × ℝ) (hx : InCube x) :
    0 ≤ discreteFunction f u E x 0 :=
  discrete_nonneg f E (fun a i => by rw [hE]; exact boundary_matrix_nonneg B _ _) u h x
    fun i hi => evaluate_nonneg_zero ns ps types f hf hu x hx i hi

/-- **C88** Densities: non-negative coefficients of a 3-form (polar or not) give a non-negative density
on `[0,1)³`. -/
theorem C88_polar_threeform_nonneg (ns ps : Nat × Nat × Nat) (types : String × String × String) (f : Form ℝ)
    (hf : Form.mk? 3 ns ps types = .ok f) (hu : UnityBases ns ps types) (dirichlet : Bool)
    (u : Fin (PolarOp.mk f.dims (getXi ns.2.1) dirichlet).n → ℝ) (h : ∀ a, 0 ≤ u a) (x : ℝ × ℝ × ℝ) (hx : InOpenCube x) :
    0 ≤ discreteFunction f u (PolarOp.mk f.dims (getXi ns.2.1) dirichlet).matrix x 0 :=
  discrete_nonneg f _ (polar_matrix_nonneg f.dims _ dirichlet (Or.inr (by rw [(Form.mk?_inv hf).2.1]))) u h x
    fun i hi => evaluate_nonneg_three ns ps types f hf hu x hx i hi

/-- **C88** A polar 0-form without boundary condition stays between its smallest and its largest
degree of freedom, everywhere in the closed cube (discrete maximum principle for the values). -/
theorem C88_polar_zeroform_range (ns ps : Nat × Nat × Nat) (tz : String) (f : Form ℝ)
    (hp : PolarSetting 0 ns ps tz f) (hr : ps.1 < ns.1) (hrf : ns.1 - ps.1 ≤ 99900)
    (ht : AngularUnity ns.2.1 ps.2.1 "periodic") (hz : AngularUnity ns.2.2 ps.2.2 tz)
    (u : Fin (PolarOp.mk f.dims (getXi ns.2.1) false).n → ℝ) (m M : ℝ) (h : ∀ a, m ≤ u a ∧ u a ≤ M) (x : ℝ × ℝ × ℝ) (hx : InCube x) :
    m ≤ discreteFunction f u (PolarOp.mk f.dims (getXi ns.2.1) false).matrix x 0 ∧
      discreteFunction f u (PolarOp.mk f.dims (getXi ns.2.1) false).matrix x 0 ≤ M := by
  have hu : UnityBases ns ps ("clamped", "periodic", tz) := ⟨Or.inr (Or.inr ⟨rfl, hr, hrf⟩), ht, hz⟩
  have one := C28_partition_of_unity ns ps tz f hp hr hrf ht hz x hx.1 hx.2.1 hx.2.2
  have lin := fun (v : Fin (PolarOp.mk f.dims (getXi ns.2.1) false).n → ℝ) (a b : ℝ) =>
    C18_discrete_function_linear f (PolarOp.mk f.dims (getXi ns.2.1) false).matrix v (fun _ => 1) a b x 0
  constructor
  · have h1 := C88_polar_zeroform_nonneg ns ps _ f hp.hmk hu false ((1 : ℝ) • u + (-m) • fun _ => (1 : ℝ))
      (fun a => by have := (h a).1; simp; linarith) x hx
    rw [lin, one] at h1
    linarith
  · have h1 := C88_polar_zeroform_nonneg ns ps _ f hp.hmk hu false ((-1 : ℝ) • u + M • fun _ => (1 : ℝ))
      (fun a => by have := (h a).2; simp; linarith) x hx
    rw [lin, one] at h1
    linarith

/-! ## The hypotheses are met -/

example : ∃ f : Form ℝ, PolarSetting 0 (4, 4, 4) (2, 2, 2) "periodic" f ∧ UnityBases (4, 4, 4) (2, 2, 2) ("clamped", "periodic", "periodic") := by
  obtain ⟨f, hf⟩ : ∃ f : Form ℝ, Form.mk? 0 (4, 4, 4) (2, 2, 2) ("clamped", "periodic", "periodic") = .ok f :=
    ⟨_, rfl⟩
  refine ⟨f, ⟨hf, by norm_num, Or.inl rfl⟩, Or.inr (Or.inr ⟨rfl, by norm_num, by norm_num⟩), Or.inl ⟨rfl, by norm_num, by norm_num, by norm_num, by norm_num⟩,
    Or.inl ⟨rfl, by norm_num, by norm_num, by norm_num, by norm_num⟩⟩

theorem case_unity : UnityBases (4, 4, 4) (2, 2, 2) ("clamped", "periodic", "periodic") :=
  ⟨Or.inr (Or.inr ⟨rfl, by norm_num, by norm_num⟩), Or.inl ⟨rfl, by norm_num, by norm_num, by norm_num, by norm_num⟩,
    Or.inl ⟨rfl, by norm_num, by norm_num, by norm_num, by norm_num⟩⟩

/-- Case of `C88_polar_zeroform_nonneg` and `C88_polar_threeform_nonneg`: 4 × 4 × 4 splines of degree 2 and unit coefficients. -/
example (dirichlet : Bool) := C88_polar_zeroform_nonneg _ _ _ _ (show Form.mk? 0 (4, 4, 4) (2, 2, 2) ("clamped", "periodic", "periodic") = .ok _ from rfl) case_unity dirichlet
  (fun _ => 1) (fun _ => zero_le_one)
example (dirichlet : Bool) := C88_polar_threeform_nonneg _ _ _ _ (show Form.mk? 3 (4, 4, 4) (2, 2, 2) ("clamped", "periodic", "periodic") = .ok _ from rfl) case_unity dirichlet
  (fun _ => 1) (fun _ => zero_le_one)

end Mrx.Props
