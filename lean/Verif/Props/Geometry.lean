import Verif.Model.Geometry
import Mathlib.Tactic.Ring
import Mathlib.Tactic.FieldSimp
import Mathlib.Tactic.LinearCombination
import Mathlib.Analysis.Calculus.FDeriv.Symmetric
import Mathlib.LinearAlgebra.Matrix.PosDef
import Mathlib.Analysis.InnerProductSpace.Basic
import Mathlib.Topology.Algebra.Module.FiniteDimension
import Mathlib.Data.Real.StarOrdered

/-! # C21–C25: pointwise geometry -/

set_option linter.unusedSectionVars false

namespace Mrx.Props
open Matrix Mrx

theorem inv33Det_eq (m : M33) : inv33Det m = m.det := by
  rw [det_fin_three]; unfold inv33Det; ring

theorem inv33_regular {m : M33} (h : ¬ |m.det| < 1e-10) : inv33 m = m⁻¹ ∧ m.det ≠ 0 := by
  have hd : m.det ≠ 0 := by
    intro h0; rw [h0] at h; norm_num at h
  refine ⟨?_, hd⟩
  symm
  apply Matrix.inv_eq_left_inv
  unfold inv33
  simp only [inv33Det_eq]
  rw [if_neg h]
  have hdet := det_fin_three m
  ext i j
  rw [Matrix.mul_apply, Fin.sum_univ_three]
  fin_cases i <;> fin_cases j <;> simp <;> field_simp <;> first | (rw [hdet]; ring) | ring

/-- **C21** `inv33(A)` is a two-sided inverse whenever `|det A| ≥ 1e-10`. -/
theorem C21_inv33_is_inverse (A : M33) (h : 1e-10 ≤ |A.det|) :
    inv33 A * A = 1 ∧ A * inv33 A = 1 := by
  obtain ⟨e, hd⟩ := inv33_regular (not_lt.mpr h)
  rw [e]
  exact ⟨Matrix.nonsing_inv_mul _ hd.isUnit, Matrix.mul_nonsing_inv _ hd.isUnit⟩

/-- **C21** below the threshold `inv33` returns the zero matrix. -/
theorem C21_inv33_zero_below_threshold (A : M33) (h : |A.det| < 1e-10) : inv33 A = 0 := by
  unfold inv33; simp only [inv33Det_eq]; rw [if_pos h]

example : inv33 (1 : M33) = 1 ∧ inv33 (0 : M33) = 0 := by
  constructor
  · have := (C21_inv33_is_inverse 1 (by rw [Matrix.det_one]; norm_num)).1; simpa using this
  · exact C21_inv33_zero_below_threshold 0 (by rw [Matrix.det_zero]; norm_num)

/-- **C21** transposing and inverting commute (both branches). -/
theorem C21_inv33_transpose (A : M33) : inv33 Aᵀ = (inv33 A)ᵀ := by
  by_cases h : |A.det| < 1e-10
  · rw [C21_inv33_zero_below_threshold A h, C21_inv33_zero_below_threshold Aᵀ (by rwa [det_transpose])]; simp
  · rw [(inv33_regular h).1, (inv33_regular (m := Aᵀ) (by rwa [det_transpose])).1, Matrix.transpose_nonsing_inv]

/-! ## C22 -/

/-- **C22** pulling back a pushed forward form gives the form: if `g` is a field on the physical domain
whose value at `F x` is the pushforward of `f` at `x`, its pullback at `x` is `f x`. Scalar degrees. -/
theorem C22_pullback_pushforward_scalar (k : Int) (hk : k = 0 ∨ k = 3) (f g : V3 → Fin 1 → ℝ) (F : V3 → V3)
    (x : V3) (hJ : 1e-10 ≤ |jacobianDeterminant F x|)
    (hg : some (g (F x)) = Pushforward.scalar k f F x) : Pullback.scalar k g F x = some (f x) := by
  have hd := (inv33_regular (not_lt.mpr hJ)).2
  rcases hk with rfl | rfl
  · simp [Pushforward.scalar, Pullback.scalar] at hg ⊢; exact hg
  · simp [Pushforward.scalar, Pullback.scalar] at hg ⊢
    rw [hg]; ext c; field_simp

/-- A map with Jacobian determinant 2 for the cases below. -/
noncomputable def caseMap : V3 → V3 := fun y => ![y 0, 2 * y 1, y 2]

theorem caseMap_det (x : V3) : jacobianDeterminant caseMap x = 2 := by
  have h : HasFDerivAt caseMap (ContinuousLinearMap.pi ![ContinuousLinearMap.proj (R := ℝ) (φ := fun _ : Fin 3 => ℝ) 0,
      (2 : ℝ) • ContinuousLinearMap.proj (R := ℝ) (φ := fun _ : Fin 3 => ℝ) 1, ContinuousLinearMap.proj (R := ℝ) (φ := fun _ : Fin 3 => ℝ) 2]) x := by
    rw [hasFDerivAt_pi]
    intro i
    fin_cases i
    · exact (ContinuousLinearMap.proj (R := ℝ) (φ := fun _ : Fin 3 => ℝ) 0).hasFDerivAt
    · exact ((ContinuousLinearMap.proj (R := ℝ) (φ := fun _ : Fin 3 => ℝ) 1).hasFDerivAt).const_smul (2 : ℝ)
    · exact (ContinuousLinearMap.proj (R := ℝ) (φ := fun _ : Fin 3 => ℝ) 2).hasFDerivAt
  unfold jacobianDeterminant
  rw [det_fin_three]
  simp [jacfwd, h.fderiv]

theorem caseMap_ok (x : V3) : 1e-10 ≤ |jacobianDeterminant caseMap x| := by rw [caseMap_det]; norm_num

/-- Case: a 3-form. -/
example (f : V3 → Fin 1 → ℝ) (x : V3) := C22_pullback_pushforward_scalar 3 (Or.inr rfl) f
  (fun _ c => f x c / (jacfwd caseMap x).det) caseMap x (caseMap_ok x) (by simp [Pushforward.scalar])

/-- **C22** the same for the vector degrees 1, 2 and −1. -/
theorem C22_pullback_pushforward_vector (k : Int) (hk : k = 1 ∨ k = 2 ∨ k = -1) (f g : V3 → V3) (F : V3 → V3)
    (x : V3) (hJ : 1e-10 ≤ |jacobianDeterminant F x|)
    (hg : some (g (F x)) = Pushforward.vector k f F x) : Pullback.vector k g F x = some (f x) := by
  obtain ⟨e, hd⟩ := inv33_regular (not_lt.mpr hJ)
  obtain ⟨i1, i2⟩ := C21_inv33_is_inverse _ hJ
  rcases hk with rfl | rfl | rfl
  · simp [Pushforward.vector, Pullback.vector] at hg ⊢
    rw [hg, Matrix.mulVec_mulVec, ← Matrix.transpose_mul, i1]; simp
  · simp [Pushforward.vector, Pullback.vector] at hg ⊢
    have : g (F x) = (jacfwd F x).det⁻¹ • (jacfwd F x *ᵥ f x) := by
      rw [hg]; ext c; simp [div_eq_inv_mul]
    rw [this, Matrix.mulVec_smul, Matrix.mulVec_mulVec, i1]
    ext c; simp; field_simp
  · simp [Pushforward.vector, Pullback.vector] at hg ⊢
    rw [hg, Matrix.mulVec_mulVec, i1]; simp

/-- Case: a 1-form. -/
example (f : V3 → V3) (x : V3) := C22_pullback_pushforward_vector 1 (Or.inl rfl) f
  (fun _ => (inv33 (jacfwd caseMap x))ᵀ *ᵥ f x) caseMap x (caseMap_ok x) (by simp [Pushforward.vector])

/-- **C22** pushing forward a pulled back field gives back the field. Scalar degrees. -/
theorem C22_pushforward_pullback_scalar (k : Int) (hk : k = 0 ∨ k = 3) (f g : V3 → Fin 1 → ℝ) (F : V3 → V3)
    (x : V3) (hJ : 1e-10 ≤ |jacobianDeterminant F x|)
    (hf : some (f x) = Pullback.scalar k g F x) : Pushforward.scalar k f F x = some (g (F x)) := by
  have hd := (inv33_regular (not_lt.mpr hJ)).2
  rcases hk with rfl | rfl
  · simp [Pushforward.scalar, Pullback.scalar] at hf ⊢; exact hf
  · simp [Pushforward.scalar, Pullback.scalar] at hf ⊢
    rw [hf]; ext c; field_simp

/-- Case: a 3-form. -/
example (g : V3 → Fin 1 → ℝ) (x : V3) := C22_pushforward_pullback_scalar 3 (Or.inr rfl)
  (fun x c => g (caseMap x) c * (jacfwd caseMap x).det) g caseMap x (caseMap_ok x) (by simp [Pullback.scalar])

/-- **C22** the same for the vector degrees. -/
theorem C22_pushforward_pullback_vector (k : Int) (hk : k = 1 ∨ k = 2 ∨ k = -1) (f g : V3 → V3) (F : V3 → V3)
    (x : V3) (hJ : 1e-10 ≤ |jacobianDeterminant F x|)
    (hf : some (f x) = Pullback.vector k g F x) : Pushforward.vector k f F x = some (g (F x)) := by
  obtain ⟨e, hd⟩ := inv33_regular (not_lt.mpr hJ)
  obtain ⟨i1, i2⟩ := C21_inv33_is_inverse _ hJ
  rcases hk with rfl | rfl | rfl
  · simp [Pushforward.vector, Pullback.vector] at hf ⊢
    rw [hf, Matrix.mulVec_mulVec, ← Matrix.transpose_mul, i2]; simp
  · simp [Pushforward.vector, Pullback.vector] at hf ⊢
    have : f x = (jacfwd F x).det • (inv33 (jacfwd F x) *ᵥ g (F x)) := by
      rw [hf]; ext c; simp [mul_comm]
    rw [this, Matrix.mulVec_smul, Matrix.mulVec_mulVec, i2]
    ext c; simp; field_simp
  · simp [Pushforward.vector, Pullback.vector] at hf ⊢
    rw [hf, Matrix.mulVec_mulVec, i2]; simp

/-- Case: a 1-form. -/
example (g : V3 → V3) (x : V3) := C22_pushforward_pullback_vector 1 (Or.inl rfl)
  (fun x => (jacfwd caseMap x)ᵀ *ᵥ g (caseMap x)) g caseMap x (caseMap_ok x) (by simp [Pullback.vector])

/-- **C22** other degrees give no value (Python returns `None`). -/
theorem C22_unknown_degree_returns_nothing (k : Int) (hk : k ∉ ({-1, 0, 1, 2, 3} : Set Int)) (f : V3 → V3)
    (s : V3 → Fin 1 → ℝ) (F : V3 → V3) (x : V3) :
    Pushforward.vector k f F x = none ∧ Pullback.vector k f F x = none ∧
    Pushforward.scalar k s F x = none ∧ Pullback.scalar k s F x = none := by
  simp only [Set.mem_insert_iff, Set.mem_singleton_iff, not_or] at hk
  simp [Pushforward.vector, Pullback.vector, Pushforward.scalar, Pullback.scalar, hk]

/-- The derivative of a linear map of ℝ³ given by a matrix is the matrix. -/
theorem jacfwd_mulVec (A : M33) (x : V3) : jacfwd (fun y => A *ᵥ y) x = A := by
  ext i j
  unfold jacfwd
  have : HasFDerivAt (fun y => A *ᵥ y) (LinearMap.toContinuousLinearMap (Matrix.toLin' A)) x :=
    (LinearMap.toContinuousLinearMap (Matrix.toLin' A)).hasFDerivAt
  rw [this.fderiv]
  simp

/-- non-vacuity: a stretched, sheared linear map has a regular Jacobian, and its pushed 1-form is non-trivial. -/
example : 1e-10 ≤ |jacobianDeterminant (fun y => (!![2, 1, 0; 0, 1, 0; 0, 0, 3] : M33) *ᵥ y) 0| ∧
    Pushforward.vector 2 (fun _ => ![1, 1, 0]) (fun y => (!![2, 1, 0; 0, 1, 0; 0, 0, 3] : M33) *ᵥ y) 0
      = some ![1/2, 1/6, 0] := by
  unfold jacobianDeterminant Pushforward.vector
  rw [jacfwd_mulVec]
  have hd : (!![2, 1, 0; 0, 1, 0; 0, 0, 3] : M33).det = 6 := by
    rw [det_fin_three]; simp; norm_num
  rw [hd]
  refine ⟨by norm_num, ?_⟩
  simp only [show ¬ ((2 : Int) = 1) by decide, if_false, if_true]
  congr 1
  ext c
  fin_cases c <;> simp [Matrix.mulVec, dotProduct, Fin.sum_univ_three] <;> norm_num

/-! ## C23 -/

/-- **C23** the pairing of 1-forms with 2-forms is invariant: `push₁ a · push₂ b · det DF = a · b`. -/
theorem C23_pairing_one_two (a b : V3 → V3) (F : V3 → V3) (x u v : V3)
    (hJ : 1e-10 ≤ |jacobianDeterminant F x|)
    (hu : Pushforward.vector 1 a F x = some u) (hv : Pushforward.vector 2 b F x = some v) :
    (u ⬝ᵥ v) * jacobianDeterminant F x = a x ⬝ᵥ b x := by
  obtain ⟨e, hd⟩ := inv33_regular (not_lt.mpr hJ)
  obtain ⟨i1, i2⟩ := C21_inv33_is_inverse _ hJ
  simp [Pushforward.vector] at hu hv
  have hv' : v = (jacfwd F x).det⁻¹ • (jacfwd F x *ᵥ b x) := by
    rw [← hv]; ext c; simp [div_eq_inv_mul]
  rw [hv', ← hu, dotProduct_smul, Matrix.mulVec_transpose, ← Matrix.dotProduct_mulVec,
    Matrix.mulVec_mulVec, i1, Matrix.one_mulVec]
  unfold jacobianDeterminant
  rw [smul_eq_mul]; field_simp

/-- Case: any two fields and the stretch. -/
example (a b : V3 → V3) (x : V3) := C23_pairing_one_two a b caseMap x _ _ (caseMap_ok x) rfl rfl

/-- **C23** the pairing of 0-forms with 3-forms is invariant. -/
theorem C23_pairing_zero_three (a b : V3 → Fin 1 → ℝ) (F : V3 → V3) (x : V3) (u v : Fin 1 → ℝ)
    (hJ : 1e-10 ≤ |jacobianDeterminant F x|)
    (hu : Pushforward.scalar 0 a F x = some u) (hv : Pushforward.scalar 3 b F x = some v) :
    u 0 * v 0 * jacobianDeterminant F x = a x 0 * b x 0 := by
  obtain ⟨e, hd⟩ := inv33_regular (not_lt.mpr hJ)
  simp [Pushforward.scalar] at hu hv
  rw [← hu, ← hv]; unfold jacobianDeterminant; field_simp

/-- Case: any two functions and the stretch. -/
example (a b : V3 → Fin 1 → ℝ) (x : V3) := C23_pairing_zero_three a b caseMap x _ _ (caseMap_ok x) rfl rfl

theorem cross_eq (a b : V3) : crossProduct a b =
    ![a 1 * b 2 - a 2 * b 1, a 2 * b 0 - a 0 * b 2, a 0 * b 1 - a 1 * b 0] := by
  rw [cross_apply]

/-- `(A u) × (A v) = cof(A) (u × v)`, multiplied by `Aᵀ`. -/
theorem cross_mulVec (A : M33) (u v : V3) :
    Aᵀ *ᵥ crossProduct (A *ᵥ u) (A *ᵥ v) = A.det • crossProduct u v := by
  rw [det_fin_three]
  simp only [cross_eq]
  ext i
  fin_cases i <;> simp [Matrix.mulVec, dotProduct, Fin.sum_univ_three] <;> ring

/-- **C23** the cross product of two pushed 1-forms is the pushed 2-form `a × b`. -/
theorem C23_cross_of_one_forms (a b : V3 → V3) (F : V3 → V3) (x u v : V3)
    (hJ : 1e-10 ≤ |jacobianDeterminant F x|)
    (hu : Pushforward.vector 1 a F x = some u) (hv : Pushforward.vector 1 b F x = some v) :
    Pushforward.vector 2 (fun y => crossProduct (a y) (b y)) F x = some (crossProduct u v) := by
  obtain ⟨e, hd⟩ := inv33_regular (not_lt.mpr hJ)
  obtain ⟨i1, i2⟩ := C21_inv33_is_inverse _ hJ
  simp [Pushforward.vector] at hu hv ⊢
  set A := jacfwd F x
  have h := cross_mulVec (inv33 A)ᵀ (a x) (b x)
  rw [hu, hv, Matrix.transpose_transpose, Matrix.det_transpose] at h
  have hdi : (inv33 A).det = A.det⁻¹ := by
    have := congrArg Matrix.det i1
    rw [Matrix.det_mul, Matrix.det_one] at this
    exact eq_inv_of_mul_eq_one_left this
  have h2 := congrArg (fun w => A *ᵥ w) h
  simp only [Matrix.mulVec_mulVec, i2, Matrix.one_mulVec, Matrix.mulVec_smul] at h2
  rw [h2, hdi]
  ext c; simp [div_eq_inv_mul]

/-- Case: any two fields and the stretch. -/
example (a b : V3 → V3) (x : V3) := C23_cross_of_one_forms a b caseMap x _ _ (caseMap_ok x) rfl rfl

/-! ## C24 -/

theorem contDiff_comp_proj {m : Nat} {F : V3 → Fin m → ℝ} {x : V3} {n : WithTop ℕ∞} (h : ContDiffAt ℝ n F x) (i : Fin m) :
    ContDiffAt ℝ n (fun y => F y i) x := contDiffAt_pi.mp h i

/-- second partial derivatives through the code's two nested `jacfwd`. -/
theorem fderiv_jacfwd {m : Nat} {F : V3 → Fin m → ℝ} {x : V3} (h : ContDiffAt ℝ 2 F x) (i : Fin m) (j k : Fin 3) :
    fderiv ℝ (fun y => jacfwd F y i j) x (Pi.single k 1)
      = fderiv ℝ (fderiv ℝ (fun y => F y i)) x (Pi.single k 1) (Pi.single j 1) := by
  have hev : (fun y => jacfwd F y i j) =ᶠ[nhds x] fun y => fderiv ℝ (fun z => F z i) y (Pi.single j 1) := by
    have h1 : ∀ᶠ y in nhds x, ContDiffAt ℝ 2 F y := h.eventually (by simp)
    filter_upwards [h1] with y hy
    unfold jacfwd
    have hd : DifferentiableAt ℝ F y := hy.differentiableAt (by simp)
    rw [fderiv_pi (fun i => (differentiableAt_pi.mp hd) i)]
    rfl
  rw [hev.fderiv_eq]
  have h2 : DifferentiableAt ℝ (fderiv ℝ (fun z => F z i)) x :=
    ((contDiff_comp_proj h i).fderiv_right (m := 1) (by norm_num)).differentiableAt (by simp)
  rw [fderiv_clm_apply h2 (differentiableAt_const _)]
  simp

theorem snd_symm {m : Nat} {F : V3 → Fin m → ℝ} {x : V3} (h : ContDiffAt ℝ 2 F x) (i : Fin m) (j k : Fin 3) :
    fderiv ℝ (fun y => jacfwd F y i j) x (Pi.single k 1) = fderiv ℝ (fun y => jacfwd F y i k) x (Pi.single j 1) := by
  rw [fderiv_jacfwd h, fderiv_jacfwd h]
  exact (contDiff_comp_proj h i).isSymmSndFDerivAt (by simp) _ _

theorem differentiableAt_jacfwd {m : Nat} {F : V3 → Fin m → ℝ} {x : V3} (h : ContDiffAt ℝ 2 F x) (i : Fin m) (j : Fin 3) :
    DifferentiableAt ℝ (fun y => jacfwd F y i j) x := by
  unfold jacfwd
  have h2 : DifferentiableAt ℝ (fderiv ℝ F) x :=
    (h.fderiv_right (m := 1) (by norm_num)).differentiableAt (by simp)
  exact (differentiableAt_pi.mp (h2.clm_apply (differentiableAt_const _))) i

/-- **C24** `curl(grad(f)) = 0` at every point where `f` is twice continuously differentiable. -/
theorem C24_curl_grad (f : V3 → Fin 1 → ℝ) (x : V3) (h : ContDiffAt ℝ 2 f x) : curl (grad f) x = 0 := by
  have key : ∀ i j : Fin 3, jacfwd (grad f) x i j = fderiv ℝ (fun y => jacfwd f y 0 i) x (Pi.single j 1) := by
    intro i j
    conv_lhs => unfold jacfwd
    rw [fderiv_pi (fun i => by exact differentiableAt_jacfwd h 0 i)]
    rfl
  unfold curl
  simp only [key]
  rw [snd_symm h 0 2 1, snd_symm h 0 0 2, snd_symm h 0 1 0]
  ext i; fin_cases i <;> simp

/-- Case: `f = x² y`. -/
example (x : V3) := C24_curl_grad (fun y _ => y 0 ^ 2 * y 1) x (by fun_prop)

/-- **C24** `div(curl(v)) = 0` at every point where `v` is twice continuously differentiable. -/
theorem C24_div_curl (v : V3 → V3) (x : V3) (h : ContDiffAt ℝ 2 v x) : div (curl v) x = 0 := by
  have hdiff := fun i j => differentiableAt_jacfwd h i j
  have hc : ∀ i : Fin 3, DifferentiableAt ℝ (fun y => curl v y i) x := by
    intro i
    unfold curl
    fin_cases i
    · exact (hdiff 2 1).sub (hdiff 1 2)
    · exact (hdiff 0 2).sub (hdiff 2 0)
    · exact (hdiff 1 0).sub (hdiff 0 1)
  have key : ∀ i j : Fin 3, jacfwd (curl v) x i j = fderiv ℝ (fun y => curl v y i) x (Pi.single j 1) := by
    intro i j
    conv_lhs => unfold jacfwd
    rw [fderiv_pi hc]
    rfl
  unfold div
  simp only [Matrix.trace, Fin.sum_univ_three, Matrix.diag, key]
  have e0 : fderiv ℝ (fun y => curl v y 0) x = fderiv ℝ (fun y => jacfwd v y 2 1) x - fderiv ℝ (fun y => jacfwd v y 1 2) x :=
    fderiv_sub (hdiff 2 1) (hdiff 1 2)
  have e1 : fderiv ℝ (fun y => curl v y 1) x = fderiv ℝ (fun y => jacfwd v y 0 2) x - fderiv ℝ (fun y => jacfwd v y 2 0) x :=
    fderiv_sub (hdiff 0 2) (hdiff 2 0)
  have e2 : fderiv ℝ (fun y => curl v y 2) x = fderiv ℝ (fun y => jacfwd v y 1 0) x - fderiv ℝ (fun y => jacfwd v y 0 1) x :=
    fderiv_sub (hdiff 1 0) (hdiff 0 1)
  rw [e0, e1, e2]
  simp only [ContinuousLinearMap.sub_apply]
  rw [snd_symm h 2 1 0, snd_symm h 1 2 0, snd_symm h 0 2 1]
  ext; simp

/-- non-vacuity: `x ↦ x₀² x₁` is C² and its gradient does not vanish at `(1,1,0)`. -/
example : ContDiffAt ℝ 2 (fun (y : V3) (_ : Fin 1) => y 0 ^ 2 * y 1) ![1, 1, 0] := by
  apply ContDiff.contDiffAt
  fun_prop

/-! ## C25 -/

/-- **C25** at every quadrature point: the metric is symmetric, `det G = J²`, and it is positive definite
exactly when `J ≠ 0`. -/
theorem C25_metric_determinant (F : V3 → V3) (xs : List V3) (j : Nat) :
    let m := Metric.ofMap F xs
    (m.G j)ᵀ = m.G j ∧ (m.G j).det = m.J j ^ 2 ∧ (m.J j ≠ 0 → (m.G j).PosDef) := by
  refine ⟨?_, ?_, ?_⟩
  · simp [Metric.ofMap, Matrix.transpose_mul]
  · simp [Metric.ofMap, jacobianDeterminant, Matrix.det_mul]; ring
  · intro h
    simp only [Metric.ofMap, jacobianDeterminant] at h ⊢
    have := Matrix.PosDef.conjTranspose_mul_self (jacfwd F (xs.getD j 0))
      (Matrix.mulVec_injective_of_isUnit ((Matrix.isUnit_iff_isUnit_det _).mpr h.isUnit))
    simpa using this

/-- **C25** at every quadrature point with `|J| ≥ 1e-5` the stored inverse metric is the inverse of the
stored metric, is symmetric, and the two weights `Ginv·J` and `G/J` used in assembly are inverse. -/
theorem C25_inverse_metric (F : V3 → V3) (xs : List V3) (j : Nat) (x : V3) (hx : xs[j]? = some x)
    (h : 1e-5 ≤ |jacobianDeterminant F x|) :
    let m := Metric.ofMap F xs
    m.G j * m.Ginv j = 1 ∧ m.Ginv j * m.G j = 1 ∧ (m.Ginv j)ᵀ = m.Ginv j ∧
      (m.J j • m.Ginv j) * ((m.J j)⁻¹ • m.G j) = 1 := by
  have e : xs.getD j 0 = x := by rw [List.getD_eq_getElem?_getD, hx]; rfl
  have hd : 1e-10 ≤ |((jacfwd F x)ᵀ * jacfwd F x).det| := by
    rw [Matrix.det_mul, Matrix.det_transpose, abs_mul]
    unfold jacobianDeterminant at h
    nlinarith [abs_nonneg (jacfwd F x).det]
  obtain ⟨i1, i2⟩ := C21_inv33_is_inverse _ hd
  have hJ : jacobianDeterminant F x ≠ 0 := by
    intro h0; rw [h0] at h; norm_num at h
  simp only [Metric.ofMap, e]
  refine ⟨i2, i1, ?_, ?_⟩
  · rw [← C21_inv33_transpose]; simp [Matrix.transpose_mul]
  · rw [Matrix.smul_mul, Matrix.mul_smul, i1, smul_smul, mul_inv_cancel₀ hJ, one_smul]

/-- Case: the stretch at two points. -/
example (x y : V3) := C25_inverse_metric caseMap [x, y] 1 y rfl (by rw [caseMap_det]; norm_num)

/-- **C25** finding: at a quadrature point where the map is regular but `|J| < 1e-5` the stored inverse
metric is the zero matrix. -/
theorem C25_inverse_metric_zero_for_small_jacobian (F : V3 → V3) (xs : List V3) (j : Nat) (x : V3)
    (hx : xs[j]? = some x) (h : |jacobianDeterminant F x| < 1e-5) : (Metric.ofMap F xs).Ginv j = 0 := by
  have e : xs.getD j 0 = x := by rw [List.getD_eq_getElem?_getD, hx]; rfl
  simp only [Metric.ofMap, e]
  apply C21_inv33_zero_below_threshold
  rw [Matrix.det_mul, Matrix.det_transpose, abs_mul]
  unfold jacobianDeterminant at h
  nlinarith [abs_nonneg (jacfwd F x).det]

/-- Case: a map that is constant. -/
example (x y : V3) := C25_inverse_metric_zero_for_small_jacobian (fun _ => 0) [x, y] 1 y rfl
  (by have : jacfwd (fun _ : V3 => (0 : V3)) y = 0 := by ext i j; simp [jacfwd]
      unfold jacobianDeterminant; rw [this]; simp; norm_num)

/-- **C25** negation: there is an invertible linear map for which, at every list of quadrature points, the
stored inverse metric is not the inverse of the stored metric. -/
theorem C25_small_domain_breaks_inverse : ∃ F : V3 → V3, (∀ x, jacobianDeterminant F x ≠ 0) ∧
    ∀ (xs : List V3) (j : Nat) (x : V3), xs[j]? = some x →
      (Metric.ofMap F xs).G j * (Metric.ofMap F xs).Ginv j ≠ 1 := by
  have hdet : ∀ x, jacobianDeterminant (fun y => ((1/100 : ℝ) • (1 : M33)) *ᵥ y) x = 1/1000000 := by
    intro x
    unfold jacobianDeterminant
    rw [jacfwd_mulVec, Matrix.det_smul]; norm_num
  refine ⟨fun y => ((1/100 : ℝ) • (1 : M33)) *ᵥ y, fun x => by rw [hdet]; norm_num, ?_⟩
  intro xs j x hx
  rw [C25_inverse_metric_zero_for_small_jacobian _ xs j x hx (by rw [hdet]; norm_num)]
  simp

/-- non-vacuity of the partial theorem. -/
example : 1e-5 ≤ |jacobianDeterminant (fun y => (!![2, 1, 0; 0, 1, 0; 0, 0, 3] : M33) *ᵥ y) 0| := by
  unfold jacobianDeterminant
  rw [jacfwd_mulVec, det_fin_three]; simp; norm_num

end Mrx.Props
