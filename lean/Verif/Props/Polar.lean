import Verif.Proofs.PolarRange
import Verif.Props.Boundary

/-! # C28: polar extraction -/

set_option linter.unusedSectionVars false

namespace Mrx.Props
open Finset Mrx Spec Matrix

/-- Value of a discrete function as a sum over the coefficient array of the extracted coefficients. -/
theorem discreteFunction_eq_sum {m : Nat} (f : Form ℝ) (hf : f.WF) (dof : Fin m → ℝ)
    (E : Matrix (Fin m) (Fin f.dims.n) ℝ) (x : ℝ × ℝ × ℝ) (comp : Nat) (hcomp : comp < f.dims.shape.length) :
    discreteFunction f dof E x comp = ∑ i ∈ range (f.dims.cshape comp).1, ∑ j ∈ range (f.dims.cshape comp).2.1,
      ∑ l ∈ range (f.dims.cshape comp).2.2, coef f.dims (Eᵀ *ᵥ dof) comp i j l * basisValue f comp x i j l := by
  unfold discreteFunction dotProduct
  rw [← mulVec_transpose]
  have h1 : ∑ i : Fin f.dims.n, (Eᵀ *ᵥ dof) i * f.evaluate x i comp
      = ∑ a ∈ range f.dims.n, (if h : a < f.dims.n then (Eᵀ *ᵥ dof) ⟨a, h⟩ else 0) * f.evaluate x a comp := by
    rw [Finset.sum_range]
    refine sum_congr rfl fun a _ => ?_
    rw [dif_pos a.2]
  rw [h1, f.dims.sum_form hf.k]
  have hl := f.dims.shape_length_le
  rw [sum_eq_single comp]
  · refine sum_congr rfl fun i hi => sum_congr rfl fun j hj => sum_congr rfl fun l hl => ?_
    rw [f.evaluate_ravel hf ⟨mem_range.mp hi, mem_range.mp hj, mem_range.mp hl⟩ x comp hcomp, if_pos rfl]
    rfl
  · intro c _ hc
    refine sum_eq_zero fun i hi => sum_eq_zero fun j hj => sum_eq_zero fun l hl => ?_
    rw [f.evaluate_ravel hf ⟨mem_range.mp hi, mem_range.mp hj, mem_range.mp hl⟩ x comp hcomp,
      if_neg (Ne.symm hc), mul_zero]
  · intro h; exact absurd (mem_range.mpr (by omega)) h

/-- Sizes of the forms a polar extraction operator is built for (`DeRhamSequence` with `polar=True`): clamped
radial direction with at least three splines, periodic poloidal direction; the axial direction is arbitrary
for 0-, 1-forms and vector fields and not clamped for 2- and 3-forms. -/
structure PolarSetting (k : Int) (ns ps : Nat × Nat × Nat) (tz : String) (f : Form ℝ) : Prop where
  hmk : Form.mk? k ns ps ("clamped", "periodic", tz) = .ok f
  nr : 3 ≤ ns.1
  tz : k = 0 ∨ k = 1 ∨ k = -1 ∨ tz ≠ "clamped"

theorem PolarSetting.std {k : Int} {ns ps : Nat × Nat × Nat} {tz : String} {f : Form ℝ}
    (h : PolarSetting k ns ps tz f) (dirichlet : Bool) : (PolarOp.mk f.dims (getXi ns.2.1) dirichlet).Std := by
  obtain ⟨hk, hd, _⟩ := Form.mk?_inv h.hmk
  have htz := h.tz
  constructor
  · show Dims.validDegree f.dims.k; rw [hd]; exact hk
  · show 3 ≤ f.dims.nr; rw [hd]; exact h.nr
  · show f.dims.dr = f.dims.nr - 1; rw [hd]; simp [Form.dsize]
  · show f.dims.dt = f.dims.nt; rw [hd]; simp [Form.dsize]
  · show f.dims.k = 0 ∨ f.dims.k = 1 ∨ f.dims.k = -1 ∨ f.dims.dz = f.dims.nz
    rw [hd]; simp only [Form.dsize]
    rcases htz with h | h | h | h
    · exact Or.inl h
    · exact Or.inr (Or.inl h)
    · exact Or.inr (Or.inr (Or.inl h))
    · exact Or.inr (Or.inr (Or.inr (if_neg h)))

/-- **C28** The coefficient vectors a polar extraction operator produces are exactly the regular ones: single
value on the axis and affine first ring (0-forms), the components of a constant covector near the axis
(1- and 2-forms), vanishing innermost ring (axial 2-form component, 3-forms), and with the Dirichlet flag a
vanishing outermost ring of scalar/tangential/normal coefficients. -/
theorem C28_range_is_polar_forms (k : Int) (ns ps : Nat × Nat × Nat) (tz : String) (f : Form ℝ)
    (h : PolarSetting k ns ps tz f) (dirichlet : Bool) (v : Fin f.dims.n → ℝ) :
    (∃ u, (PolarOp.mk f.dims (getXi ns.2.1) dirichlet).matrixᵀ *ᵥ u = v) ↔
      PolarForm k ns.1 ns.2.1 ns.2.2 f.dims.dz dirichlet (coef f.dims v) := by
  obtain ⟨hk, hd, _⟩ := Form.mk?_inv h.hmk
  have e : PolarForm k ns.1 ns.2.1 ns.2.2 f.dims.dz dirichlet (coef f.dims v) ↔
      PolarForm f.dims.k f.dims.nr f.dims.nt f.dims.nz f.dims.dz dirichlet (coef f.dims v) := by
    rw [show f.dims.k = k by rw [hd], show f.dims.nr = ns.1 by rw [hd], show f.dims.nt = ns.2.1 by rw [hd],
      show f.dims.nz = ns.2.2 by rw [hd]]
  have hx : (PolarOp.mk f.dims (getXi ns.2.1) dirichlet).ξ = getXi f.dims.nt := by
    rw [show f.dims.nt = ns.2.1 by rw [hd]]
  rw [e]
  constructor
  · rintro ⟨u, rfl⟩
    exact PolarOp.range_sub _ (h.std dirichlet) hx u
  · exact PolarOp.range_sup _ (h.std dirichlet) hx

/-- Case: 1-forms on 4 × 5 × 3 splines. -/
example (dirichlet : Bool) := C28_range_is_polar_forms 1 (4, 5, 3) (2, 2, 1) "periodic" _ ⟨rfl, by norm_num, by norm_num⟩ dirichlet

/-- Conditions under which the angular splines sum to one. -/
def AngularUnity (n p : Nat) (ty : String) : Prop :=
  (ty = "periodic" ∧ 1 ≤ p ∧ (p < n ∨ p = 1) ∧ 1 ≤ n ∧ n ≤ 49975) ∨ (ty = "constant" ∧ n = 1) ∨
  (ty = "clamped" ∧ p < n ∧ n - p ≤ 99900)

theorem AngularUnity.sum {n p : Nat} {ty : String} (h : AngularUnity n p ty) {s : SplineBasis ℝ}
    (hs : SplineBasis.mk? n p ty = .ok s) (x : ℝ) (h0 : 0 ≤ x) (h1 : x ≤ 1) :
    ∑ i ∈ range n, s.evaluate x (i : Int) = 1 := by
  rcases h with ⟨rfl, a, b, c, d⟩ | ⟨rfl, rfl⟩ | ⟨rfl, a, b⟩
  · exact C02_periodic_partition_of_unity n p a c b d s hs x h0 h1
  · have ht := (Form.spline_mk?_ok hs).2.2
    simp [SplineBasis.evaluate, ht]
  · exact C01_clamped_partition_of_unity n p a b s hs x h0 h1

theorem zeroform_value (ns ps : Nat × Nat × Nat) (tz : String) (f : Form ℝ)
    (h : PolarSetting 0 ns ps tz f) (dirichlet : Bool)
    (u : Fin (PolarOp.mk f.dims (getXi ns.2.1) dirichlet).n → ℝ) (x : ℝ × ℝ × ℝ) :
    discreteFunction f u (PolarOp.mk f.dims (getXi ns.2.1) dirichlet).matrix x 0 =
      ∑ i ∈ range ns.1, ∑ j ∈ range ns.2.1, ∑ l ∈ range ns.2.2,
        coef f.dims ((PolarOp.mk f.dims (getXi ns.2.1) dirichlet).matrixᵀ *ᵥ u) 0 i j l
          * (f.Λ0.evaluate x.1 i * f.Λ1.evaluate x.2.1 j * f.Λ2.evaluate x.2.2 l) := by
  obtain ⟨hk, hd, _⟩ := Form.mk?_inv h.hmk
  have hk0 : f.dims.k = 0 := by rw [hd]
  rw [discreteFunction_eq_sum f (Form.mk?_wf h.hmk) _ _ _ 0 (by simp [Dims.shape, hk0])]
  have hc : f.dims.cshape 0 = (ns.1, ns.2.1, ns.2.2) := by
    simp only [Dims.cshape, Dims.shape, hk0, if_true]
    rw [hd]; rfl
  rw [hc]
  simp only [basisValue, isDeriv, hk0, factor]
  simp

/-- **C28** A discrete 0-form built through the polar extraction is single-valued on the axis `r = 0`. -/
theorem C28_single_valued_on_axis (ns ps : Nat × Nat × Nat) (tz : String) (f : Form ℝ)
    (h : PolarSetting 0 ns ps tz f) (hr : ps.1 < ns.1) (hrf : ns.1 - ps.1 ≤ 99900)
    (ht : AngularUnity ns.2.1 ps.2.1 "periodic") (dirichlet : Bool)
    (u : Fin (PolarOp.mk f.dims (getXi ns.2.1) dirichlet).n → ℝ) (θ θ' ζ : ℝ)
    (h0 : 0 ≤ θ ∧ θ ≤ 1) (h0' : 0 ≤ θ' ∧ θ' ≤ 1) :
    discreteFunction f u (PolarOp.mk f.dims (getXi ns.2.1) dirichlet).matrix (0, θ, ζ) 0
      = discreteFunction f u (PolarOp.mk f.dims (getXi ns.2.1) dirichlet).matrix (0, θ', ζ) 0 := by
  obtain ⟨hk, hd, s0, s1, s2, _⟩ := Form.mk?_inv h.hmk
  have hp := (C28_range_is_polar_forms 0 ns ps tz f h dirichlet _).mp ⟨u, rfl⟩
  simp only [PolarForm, if_true] at hp
  obtain ⟨⟨a, b, c, hab⟩, _⟩ := hp
  have hnr := h.nr
  have key : ∀ θ, 0 ≤ θ → θ ≤ 1 →
      discreteFunction f u (PolarOp.mk f.dims (getXi ns.2.1) dirichlet).matrix (0, θ, ζ) 0
        = ∑ l ∈ range ns.2.2, a l * f.Λ2.evaluate ζ l := by
    intro θ h0 h1
    rw [zeroform_value ns ps tz f h]
    rw [sum_eq_single 0]
    · rw [sum_comm]
      refine sum_congr rfl fun l hl => ?_
      have e0 := (C05_clamped_endpoints ns.1 ps.1 hr hrf f.Λ0 s0 0 (by omega)).1
      have : ∀ j ∈ range ns.2.1,
          coef f.dims ((PolarOp.mk f.dims (getXi ns.2.1) dirichlet).matrixᵀ *ᵥ u) 0 0 j l
          * (f.Λ0.evaluate 0 ((0 : ℕ) : ℤ) * f.Λ1.evaluate θ j * f.Λ2.evaluate ζ l)
          = f.Λ1.evaluate θ j * (a l * f.Λ2.evaluate ζ l) := by
        intro j hj
        rw [(hab j (mem_range.mp hj) l (mem_range.mp hl)).1, e0, if_pos rfl]; ring
      rw [sum_congr rfl this, ← sum_mul, ht.sum s1 θ h0 h1, one_mul]
    · intro i hi hne
      have e0 := (C05_clamped_endpoints ns.1 ps.1 hr hrf f.Λ0 s0 i (mem_range.mp hi)).1
      refine sum_eq_zero fun j _ => sum_eq_zero fun l _ => ?_
      simp only [e0, if_neg hne]; ring
    · intro hh; exact absurd (mem_range.mpr (by omega)) hh
  rw [key θ h0.1 h0.2, key θ' h0'.1 h0'.2]

/-- Case: 4 × 5 × 3 splines, the angles 0 and 1/3. -/
example (dirichlet : Bool) (u) := C28_single_valued_on_axis (4, 5, 3) (2, 2, 1) "periodic" _ ⟨rfl, by norm_num, by norm_num⟩
  (by norm_num) (by norm_num) (Or.inl (by norm_num)) dirichlet u 0 (1 / 3) (1 / 4) (by norm_num) (by norm_num)

/-- **C28** Without a Dirichlet condition the polar 0-form basis is a partition of unity: all degrees of
freedom equal to one give the constant function one. -/
theorem C28_partition_of_unity (ns ps : Nat × Nat × Nat) (tz : String) (f : Form ℝ)
    (h : PolarSetting 0 ns ps tz f) (hr : ps.1 < ns.1) (hrf : ns.1 - ps.1 ≤ 99900)
    (ht : AngularUnity ns.2.1 ps.2.1 "periodic") (hz : AngularUnity ns.2.2 ps.2.2 tz) (x : ℝ × ℝ × ℝ)
    (h0 : 0 ≤ x.1 ∧ x.1 ≤ 1) (h1 : 0 ≤ x.2.1 ∧ x.2.1 ≤ 1) (h2 : 0 ≤ x.2.2 ∧ x.2.2 ≤ 1) :
    discreteFunction f (fun _ => 1) (PolarOp.mk f.dims (getXi ns.2.1) false).matrix x 0 = 1 := by
  obtain ⟨hk, hd, s0, s1, s2, _⟩ := Form.mk?_inv h.hmk
  have hnr := h.nr
  have hs := h.std false
  have hk0 : f.dims.k = 0 := by rw [hd]
  have enr : f.dims.nr = ns.1 := by rw [hd]
  have ent : f.dims.nt = ns.2.1 := by rw [hd]
  have enz : f.dims.nz = ns.2.2 := by rw [hd]
  rw [zeroform_value ns ps tz f h]
  have hone : ∀ i ∈ range ns.1, ∀ j ∈ range ns.2.1, ∀ l ∈ range ns.2.2,
      coef f.dims ((PolarOp.mk f.dims (getXi ns.2.1) false).matrixᵀ *ᵥ fun _ => 1) 0 i j l = 1 := by
    intro i hi j hj l hl
    rw [mem_range] at hi hj hl
    have := PolarOp.coef0 _ hs (fun _ => 1) hk0 (i := i) (j := j) (l := l)
      (by show i < f.dims.nr; omega) (by show j < f.dims.nt; omega) (by show l < f.dims.nz; omega)
    rw [this]
    have en : (PolarOp.mk f.dims (getXi ns.2.1) false).n
        = (PolarOp.mk f.dims (getXi ns.2.1) false).discSize ns.2.1 ns.2.2 := by
      simp [PolarOp.n, PolarOp.n1, PolarOp.n2, PolarOp.n3, hk0, ent, enz]
    have esz := PolarOp.discSize_eq (PolarOp.mk f.dims (getXi ns.2.1) false) ns.2.1 ns.2.2
    have eo : (PolarOp.mk f.dims (getXi ns.2.1) false).o = 0 := by simp [PolarOp.o]
    have e1 : ∀ m < (PolarOp.mk f.dims (getXi ns.2.1) false).n, ext0 (fun _ :
        Fin (PolarOp.mk f.dims (getXi ns.2.1) false).n => (1:ℝ)) m = 1 := fun m hm => by
      unfold ext0; rw [dif_pos hm]
    unfold PolarOp.discVal
    show (if i < 2 then ∑ p ∈ range 3, (getXi ns.2.1).get p i j * ext0 _ (p * f.dims.nz + l) else 0)
      + (if 2 ≤ i ∧ i < f.dims.nr - _ then ext0 _ (3 * f.dims.nz + (((i - 2) * f.dims.nt + j) * f.dims.nz + l))
        else 0) = 1
    rw [enr, ent, enz, eo]
    have hp : ∀ p ∈ range 3, ext0 (fun _ : Fin (PolarOp.mk f.dims (getXi ns.2.1) false).n => (1:ℝ))
        (p * ns.2.2 + l) = 1 := by
      intro p hp
      rw [mem_range] at hp
      apply e1
      have : p * ns.2.2 ≤ 2 * ns.2.2 := Nat.mul_le_mul_right _ (by omega)
      omega
    rw [sum_congr rfl fun p hpp => by rw [hp p hpp, mul_one]]
    obtain ⟨xa, xb, xc⟩ := xi1 hj
    rcases (show i = 0 ∨ i = 1 ∨ 2 ≤ i by omega) with rfl | rfl | h2
    · simp only [sum_range_succ, range_zero, sum_empty, xi0 hj]; norm_num
    · simp only [sum_range_succ, range_zero, sum_empty, xa, xb, xc]; norm_num; ring
    · rw [if_neg (by omega), if_pos ⟨h2, by omega⟩, e1, zero_add]
      have := Jax.flat_lt (show i - 2 < f.dims.nr - 2 - 0 by omega) hj hl
      simp only [eo] at esz
      rw [en, esz]
      omega
  rw [sum_congr rfl fun i hi => sum_congr rfl fun j hj => sum_congr rfl fun l hl => by
    rw [hone i hi j hj l hl, one_mul]]
  simp only [← mul_sum, ← sum_mul]
  rw [hz.sum s2 _ h2.1 h2.2]
  simp only [mul_one, ← mul_sum, ← sum_mul]
  rw [ht.sum s1 _ h1.1 h1.2]
  simp only [mul_one]
  exact C01_clamped_partition_of_unity ns.1 ps.1 hr hrf f.Λ0 s0 _ h0.1 h0.2

/-- Case: 4 × 5 × 3 splines. -/
example := C28_partition_of_unity (4, 5, 3) (2, 2, 1) "periodic" _ ⟨rfl, by norm_num, by norm_num⟩
  (by norm_num) (by norm_num) (Or.inl (by norm_num)) (Or.inl (by norm_num)) (1 / 2, 1 / 3, 1 / 4) (by norm_num) (by norm_num) (by norm_num)

/-- **C28** With the Dirichlet flag a discrete 0-form vanishes on the outer boundary `r = 1`. -/
theorem C28_dirichlet_trace (ns ps : Nat × Nat × Nat) (tz : String) (f : Form ℝ)
    (h : PolarSetting 0 ns ps tz f) (hr : ps.1 < ns.1) (hrf : ns.1 - ps.1 ≤ 99900)
    (u : Fin (PolarOp.mk f.dims (getXi ns.2.1) true).n → ℝ) (θ ζ : ℝ) :
    discreteFunction f u (PolarOp.mk f.dims (getXi ns.2.1) true).matrix (1, θ, ζ) 0 = 0 := by
  obtain ⟨hk, hd, s0, s1, s2, _⟩ := Form.mk?_inv h.hmk
  have hp := (C28_range_is_polar_forms 0 ns ps tz f h true _).mp ⟨u, rfl⟩
  simp only [PolarForm, if_true] at hp
  obtain ⟨_, hz⟩ := hp
  rw [zeroform_value ns ps tz f h]
  refine sum_eq_zero fun i hi => sum_eq_zero fun j hj => sum_eq_zero fun l hl => ?_
  have e1 := (C05_clamped_endpoints ns.1 ps.1 hr hrf f.Λ0 s0 i (mem_range.mp hi)).2
  by_cases hi1 : i = ns.1 - 1
  · rw [hi1, hz rfl j (mem_range.mp hj) l (mem_range.mp hl), zero_mul]
  · simp only [e1, if_neg hi1]; ring

/-- The setting is satisfiable. -/
example : ∃ f : Form ℝ, PolarSetting 0 (4, 4, 1) (2, 2, 0) "constant" f ∧ AngularUnity 4 2 "periodic" ∧
    AngularUnity 1 0 "constant" := by
  have h : ∃ f : Form ℝ, Form.mk? 0 (4, 4, 1) (2, 2, 0) ("clamped", "periodic", "constant") = .ok f := by
    unfold Form.mk?
    simp [mk?_clamped 4 2 (Or.inl (by omega)), mk?_periodic 4 2 (Or.inl (by omega)),
      mk?_deriv_clamped 4 2 (by omega) (by omega), mk?_deriv_periodic 4 2 (by omega) (by omega) (by omega),
      show SplineBasis.mk? (K := ℝ) 1 0 "constant" = .ok ⟨1, 0, "constant", [0, 1]⟩ from rfl,
      show DerivativeSpline.mk? (K := ℝ) ⟨1, 0, "constant", [0, 1]⟩
        = .ok ⟨1, 0, "constant", [0, 1], ⟨1, 0, "constant", [0, 1]⟩⟩ from by simp [DerivativeSpline.mk?, SplineBasis.mk?],
      Dims.validDegree]
  obtain ⟨f, hf⟩ := h
  exact ⟨f, ⟨hf, by norm_num, Or.inl rfl⟩, Or.inl ⟨rfl, by norm_num, by norm_num, by norm_num, by norm_num⟩,
    Or.inr (Or.inl ⟨rfl, rfl⟩)⟩

end Mrx.Props
