import Verif.Props.Poisson
import Verif.Props.Units
import Verif.Props.HarmonicAll
import Verif.Props.Spectrum
import Verif.Props.Resolution

/-!
# C104: the vector Poisson problem of `scripts/interactive/cylinder_vector_poisson.py`
-/

set_option linter.unusedVariables false
set_option linter.unusedSectionVars false

namespace Mrx.Props
open Mrx Spec Matrix DeRham Module

section
variable {ns ps : Nat × Nat × Nat} {q : Nat} {types : String × String × String} {F : V3 → V3} {polar dirichlet : Bool} {D : DeRham}

theorem vp_parts (h : Admissible ns ps q types F polar dirichlet D) :
    D.M2 * (D.dd2 - D.strongCurl * D.weakCurl) = D.strongDivᵀ * D.M3 * D.strongDiv ∧
    D.M2 * (D.strongCurl * D.weakCurl) = D.M2 * (D.strongCurl * D.M1⁻¹ * D.strongCurlᵀ) * D.M2 := by
  obtain ⟨m0, m1, m2, m3⟩ := C31_mass_matrices_definite h
  have hd := (C34_laplacians_are_hodge h).2.2
  have t2 : D.M2ᵀ = D.M2 := m2.1
  have t1 : D.M1ᵀ = D.M1 := m1.1
  have e1 : D.M2 * D.strongCurl = D.D1 := by
    unfold strongCurl solve
    rw [← Matrix.mul_assoc, mul_nonsing_inv _ m2.det, Matrix.one_mul]
  have e2 : D.M3 * D.strongDiv = D.D2 := by
    unfold strongDiv solve
    rw [← Matrix.mul_assoc, mul_nonsing_inv _ m3.det, Matrix.one_mul]
  constructor
  · rw [hd, add_sub_cancel_right]
    unfold weakGrad solve
    rw [t2, Matrix.neg_mul, neg_neg, ← Matrix.mul_assoc, ← Matrix.mul_assoc, mul_nonsing_inv _ m2.det, Matrix.one_mul, ← e2, transpose_mul,
      show D.M3ᵀ = D.M3 from m3.1]
  · have : D.weakCurl = D.M1⁻¹ * D.strongCurlᵀ * D.M2 := by
      unfold weakCurl solve
      rw [t1, ← e1, transpose_mul, t2, Matrix.mul_assoc]
    rw [this]
    simp only [Matrix.mul_assoc]

theorem vp_matrix (h : Admissible ns ps q types F polar dirichlet D) :
    D.vectorPoissonMatrix = D.strongCurl * D.M1⁻¹ * D.strongCurlᵀ + D.strongDivᵀ * D.M3 * D.strongDiv := by
  unfold vectorPoissonMatrix
  rw [(vp_parts h).1, solve]
  simp only [Matrix.mul_assoc]

/-- **C104** the matrix the script inverts is that of the vector Laplacian, `M2 dd2` (which the test of the same name uses), exactly when multiplying
the curl part by `M2` from both sides changes nothing. -/
theorem C104_right_iff (h : Admissible ns ps q types F polar dirichlet D) :
    D.vectorPoissonMatrix = D.M2 * D.dd2 ↔
      D.M2 * (D.strongCurl * D.M1⁻¹ * D.strongCurlᵀ) * D.M2 = D.strongCurl * D.M1⁻¹ * D.strongCurlᵀ := by
  have e : D.M2 * D.dd2 = D.M2 * (D.strongCurl * D.M1⁻¹ * D.strongCurlᵀ) * D.M2 + D.strongDivᵀ * D.M3 * D.strongDiv := by
    rw [← (vp_parts h).1, ← (vp_parts h).2, ← Matrix.mul_add, add_sub_cancel]
  rw [e, vp_matrix h, add_left_inj, eq_comm]

/-- **C104** the quadratic form of the script's matrix: the squared norm of the divergence, which is right, and the norm of `Cᵀ v` in the inverse of
`M1` instead of the squared norm of the weak curl, for which `v` has to be multiplied by `M2` first. -/
theorem C104_energy (h : Admissible ns ps q types F polar dirichlet D) (v : Fin D.m2 → ℝ) :
    v ⬝ᵥ D.vectorPoissonMatrix *ᵥ v = (D.strongDiv *ᵥ v) ⬝ᵥ D.M3 *ᵥ (D.strongDiv *ᵥ v) + (D.strongCurlᵀ *ᵥ v) ⬝ᵥ D.M1⁻¹ *ᵥ (D.strongCurlᵀ *ᵥ v) ∧
    v ⬝ᵥ (D.M2 * D.dd2) *ᵥ v = (D.strongDiv *ᵥ v) ⬝ᵥ D.M3 *ᵥ (D.strongDiv *ᵥ v) +
      (D.strongCurlᵀ *ᵥ (D.M2 *ᵥ v)) ⬝ᵥ D.M1⁻¹ *ᵥ (D.strongCurlᵀ *ᵥ (D.M2 *ᵥ v)) := by
  obtain ⟨m0, m1, m2, m3⟩ := C31_mass_matrices_definite h
  have gen : ∀ {a b : Nat} (A : Matrix (Fin a) (Fin b) ℝ) (B : Matrix (Fin b) (Fin b) ℝ) (w : Fin a → ℝ),
      w ⬝ᵥ (A * B * Aᵀ) *ᵥ w = (Aᵀ *ᵥ w) ⬝ᵥ B *ᵥ (Aᵀ *ᵥ w) := by
    intro a b A B w
    rw [Matrix.mul_assoc, ← mulVec_mulVec, ← mulVec_mulVec, dotProduct_mulVec, ← mulVec_transpose]
  have g3 : v ⬝ᵥ (D.strongDivᵀ * D.M3 * D.strongDiv) *ᵥ v = (D.strongDiv *ᵥ v) ⬝ᵥ D.M3 *ᵥ (D.strongDiv *ᵥ v) := by
    simpa using gen D.strongDivᵀ D.M3 v
  have t2 : D.M2ᵀ = D.M2 := m2.1
  constructor
  · rw [vp_matrix h, add_mulVec, dotProduct_add, gen, g3, add_comm]
  · have e : D.M2 * D.dd2 = D.M2 * (D.strongCurl * D.M1⁻¹ * D.strongCurlᵀ) * D.M2 + D.strongDivᵀ * D.M3 * D.strongDiv := by
      rw [← (vp_parts h).1, ← (vp_parts h).2, ← Matrix.mul_add, add_sub_cancel]
    rw [e, add_mulVec, dotProduct_add, g3, add_comm]
    congr 1
    rw [← mulVec_mulVec, ← mulVec_mulVec, dotProduct_mulVec, ← mulVec_transpose, t2, gen]

/-- **C104** the script's matrix is symmetric positive semidefinite, so that `eigh` applies and the eigenvalues are not negative; its null vectors are
the divergence-free fields whose coefficients are orthogonal, as numbers and not in the L2 product, to all curls. There are as many of them as
harmonic fields. -/
theorem C104_kernel (h : Admissible ns ps q types F polar dirichlet D) :
    SPSD D.vectorPoissonMatrix ∧
    (∀ v, D.vectorPoissonMatrix *ᵥ v = 0 ↔ D.strongDiv *ᵥ v = 0 ∧ ∀ A, v ⬝ᵥ D.strongCurl *ᵥ A = 0) ∧
    finrank ℝ (LinearMap.ker D.vectorPoissonMatrix.mulVecLin) = finrank ℝ (LinearMap.ker D.dd2.mulVecLin) := by
  obtain ⟨m0, m1, m2, m3⟩ := C31_mass_matrices_definite h
  have k : ∀ v, D.vectorPoissonMatrix *ᵥ v = 0 ↔ D.strongDiv *ᵥ v = 0 ∧ D.strongCurlᵀ *ᵥ v = 0 := by
    intro v
    constructor
    · intro hv
      have e := (C104_energy h v).1
      rw [hv, dotProduct_zero] at e
      have a := m3.psd.2 (D.strongDiv *ᵥ v)
      have b := m1.inv.psd.2 (D.strongCurlᵀ *ᵥ v)
      exact ⟨m3.eq_zero (by linarith), m1.inv.eq_zero (by linarith)⟩
    · rintro ⟨a, b⟩
      rw [vp_matrix h, add_mulVec, ← mulVec_mulVec, ← mulVec_mulVec, b, mulVec_zero, ← mulVec_mulVec, ← mulVec_mulVec, a]
      simp only [mulVec_zero, add_zero]
  refine ⟨?_, fun v => ?_, ?_⟩
  · rw [vp_matrix h]
    have := m3.psd.congr D.strongDivᵀ
    rw [transpose_transpose] at this
    exact (m1.inv.psd.congr _).add this
  · rw [k v]
    refine and_congr_right fun _ => ⟨fun e A => ?_, fun e => ?_⟩
    · rw [dotProduct_comm, mulVec_dot, e, dotProduct_zero]
    · have := e (D.strongCurlᵀ *ᵥ v)
      rw [dotProduct_comm, mulVec_dot] at this
      exact dotProduct_self_eq_zero.1 this
  · obtain ⟨cg, dc, _, _⟩ := C33_exactness h
    have e : LinearMap.ker D.vectorPoissonMatrix.mulVecLin = LinearMap.ker D.strongDiv.mulVecLin ⊓ LinearMap.ker D.strongCurlᵀ.mulVecLin := by
      ext v
      simp only [Submodule.mem_inf, LinearMap.mem_ker, mulVecLin_apply]; exact k v
    have f := finrank_harmonic D.strongCurl.mulVecLin D.strongDiv.mulVecLin D.strongCurlᵀ.mulVecLin
      (fun x => by simp only [mulVecLin_apply, mulVec_mulVec, dc, zero_mulVec])
      (fun x hx => by
        simp only [mulVecLin_apply] at hx ⊢
        exact dotProduct_self_eq_zero.1 (by rw [mulVec_dot, hx, dotProduct_zero])) (rank_transpose D.strongCurl)
    have le : ∀ {a b c : Nat} (A : Matrix (Fin b) (Fin a) ℝ) (B : Matrix (Fin c) (Fin b) ℝ), B * A = 0 → finrank ℝ (LinearMap.ker B.mulVecLin) =
        A.rank + (finrank ℝ (LinearMap.ker B.mulVecLin) - A.rank) := by
      intro a b c A B hBA
      refine (Nat.add_sub_of_le ?_).symm
      refine Submodule.finrank_mono ?_
      rintro _ ⟨x, rfl⟩
      simp only [LinearMap.mem_ker, mulVecLin_apply, mulVec_mulVec, hBA, zero_mulVec]
    have g := (harmonic_dims_of h rfl (le _ _ cg) (le _ _ dc)
      (show D.m3 = D.strongDiv.rank + (D.m3 - D.strongDiv.rank) from (Nat.add_sub_of_le (by simpa using rank_le_card_height D.strongDiv)).symm)).2.2.1
    rw [e, g]
    rw [rank_eq] at f
    omega

theorem vp_scale {a b : Nat} {s : ℝ} (hs : 0 < s) {C C' : Matrix (Fin b) (Fin a) ℝ} {M1 M1' : Matrix (Fin a) (Fin a) ℝ} {M2 M2' : Matrix (Fin b) (Fin b) ℝ}
    (c : C' = C) (h1 : M1' = s • M1) (h2 : M2' = s⁻¹ • M2) :
    M2' * (C' * M1'⁻¹ * C'ᵀ) * M2' = C' * M1'⁻¹ * C'ᵀ ↔ M2 * (C * M1⁻¹ * Cᵀ) * M2 = s ^ 2 • (C * M1⁻¹ * Cᵀ) := by
  subst c h1 h2
  rw [inv_scale _ hs.ne']
  simp only [Matrix.mul_smul, Matrix.smul_mul, smul_smul]
  generalize M2 * (C' * M1⁻¹ * C'ᵀ) * M2 = Y
  generalize C' * M1⁻¹ * C'ᵀ = X
  constructor
  · intro e
    have := congrArg (fun Z => (s ^ 3) • Z) e
    simp only [smul_smul] at this
    rw [show s ^ 3 * (s⁻¹ * (s⁻¹ * s⁻¹)) = 1 by field_simp, one_smul, show s ^ 3 * s⁻¹ = s ^ 2 by field_simp] at this
    exact this
  · intro e
    rw [e, smul_smul]
    congr 1
    field_simp

/-- **C104** in other units of length (the map multiplied by `s`) the matrix is right exactly when the curl part, multiplied by `M2` from both sides, is `s²`
times itself: the two parts of the script's matrix are not in the same units. -/
theorem C104_units_iff {s : ℝ} (hs : 0 < s) {R : M33} (hR : IsRotation R) (b : V3) (h : Admissible ns ps q types F polar dirichlet D)
    (h' : Admissible ns ps q types (similarity s R b F) polar dirichlet (withMap D (similarity s R b F))) :
    (withMap D (similarity s R b F)).vectorPoissonMatrix = (withMap D (similarity s R b F)).M2 * (withMap D (similarity s R b F)).dd2 ↔
      D.M2 * (D.strongCurl * D.M1⁻¹ * D.strongCurlᵀ) * D.M2 = s ^ 2 • (D.strongCurl * D.M1⁻¹ * D.strongCurlᵀ) := by
  have r := rescaled hs hR b h h'
  rw [C104_right_iff h']
  generalize similarity s R b F = F' at r
  have c : ((withMap D F').strongCurl : Matrix (Fin D.m2) (Fin D.m1) ℝ) = D.strongCurl := r.strongCurl
  have m1 : ((withMap D F').M1 : Matrix (Fin D.m1) (Fin D.m1) ℝ) = s • D.M1 := r.M1
  have m2 : ((withMap D F').M2 : Matrix (Fin D.m2) (Fin D.m2) ℝ) = s⁻¹ • D.M2 := r.M2
  exact vp_scale hs c m1 m2

theorem curl_part_zero (h : Admissible ns ps q types F polar dirichlet D) (e : D.strongCurl * D.M1⁻¹ * D.strongCurlᵀ = 0) : D.strongCurl = 0 := by
  obtain ⟨m0, m1, m2, m3⟩ := C31_mass_matrices_definite h
  have : D.strongCurlᵀ = 0 := by
    apply Matrix.ext_of_mulVec_single
    intro i
    rw [zero_mulVec]
    refine m1.inv.eq_zero ?_
    obtain ⟨v, hv⟩ : ∃ v : Fin D.m2 → ℝ, v = Pi.single i 1 := ⟨_, rfl⟩
    rw [← hv]
    have := congrArg (fun Z => v ⬝ᵥ Z *ᵥ v) e
    simp only [zero_mulVec, dotProduct_zero, Matrix.mul_assoc, ← mulVec_mulVec] at this
    rw [dotProduct_comm, mulVec_dot, dotProduct_comm] at this
    exact this
  rw [← transpose_transpose D.strongCurl, this, transpose_zero]

/-- **C104** consequently the matrix is right for at most one size of the domain (if there is a field with a curl at all). -/
theorem C104_one_size {s t : ℝ} (hs : 0 < s) (ht : 0 < t) {R : M33} (hR : IsRotation R) (b : V3) (h : Admissible ns ps q types F polar dirichlet D)
    (h1 : Admissible ns ps q types (similarity s R b F) polar dirichlet (withMap D (similarity s R b F)))
    (h2 : Admissible ns ps q types (similarity t R b F) polar dirichlet (withMap D (similarity t R b F))) (hC : D.strongCurl ≠ 0) (hst : s ≠ t) :
    ¬ ((withMap D (similarity s R b F)).vectorPoissonMatrix = (withMap D (similarity s R b F)).M2 * (withMap D (similarity s R b F)).dd2 ∧
      (withMap D (similarity t R b F)).vectorPoissonMatrix = (withMap D (similarity t R b F)).M2 * (withMap D (similarity t R b F)).dd2) := by
  rintro ⟨e1, e2⟩
  apply hst
  rw [C104_units_iff hs hR b h h1] at e1
  rw [C104_units_iff ht hR b h h2, e1] at e2
  have hX : D.strongCurl * D.M1⁻¹ * D.strongCurlᵀ ≠ 0 := fun e => hC (curl_part_zero h e)
  have := smul_left_injective ℝ hX e2
  exact (pow_left_inj₀ hs.le ht.le two_ne_zero).1 this


/-- **C104** a solution of the script's system for a source exists exactly when the source is L2-orthogonal to the fields of `C104_kernel`, which are in general
not the harmonic ones. -/
theorem C104_solvable_iff (h : Admissible ns ps q types F polar dirichlet D) {w : Fin D.m2 → ℝ} {V : Matrix (Fin D.m2) (Fin D.m2) ℝ}
    (hV : IsEigh (symmetrize D.vectorPoissonMatrix) w V) {tol : ℝ} (ht : 0 ≤ tol) (hw : ∀ k, w k ≠ 0 → tol < |w k|) (f : V3 → V3) :
    D.vectorPoissonMatrix *ᵥ (eighPinv w V tol *ᵥ D.projector2 f) = D.projector2 f ↔
      ∀ v, D.strongDiv *ᵥ v = 0 → (∀ A, v ⬝ᵥ D.strongCurl *ᵥ A = 0) → l2Product (D.phys2 v) f D.S.Q F = 0 := by
  classical
  obtain ⟨s2, hk, -⟩ := C104_kernel h
  rw [symmetrize_eq s2.1] at hV
  have hX := (C78_eigh_pinv_iff hV ht).mpr hw
  obtain ⟨A, hA⟩ : ∃ A, A = D.vectorPoissonMatrix := ⟨_, rfl⟩
  rw [← hA] at hX hV s2 hk ⊢
  constructor
  · intro e v h1 h2
    rw [← h.proj2_l2, ← e, sym_dot s2.1, (hk v).mpr ⟨h1, h2⟩, dotProduct_zero]
  · intro e
    have hr : A *ᵥ (D.projector2 f - A *ᵥ (eighPinv w V tol *ᵥ D.projector2 f)) = 0 := by
      have : A * (A * eighPinv w V tol) = A := by
        have t := congrArg transpose hX.axa
        rw [transpose_mul, hX.ax, s2.1] at t
        exact t
      rw [mulVec_sub, mulVec_mulVec, mulVec_mulVec, Matrix.mul_assoc, this, sub_self]
    obtain ⟨h1, h2⟩ := (hk _).mp hr
    have e1 : (D.projector2 f - A *ᵥ (eighPinv w V tol *ᵥ D.projector2 f)) ⬝ᵥ A *ᵥ (eighPinv w V tol *ᵥ D.projector2 f) = 0 := by
      rw [sym_dot s2.1, hr, dotProduct_zero]
    have e2 := e _ h1 h2
    rw [← h.proj2_l2] at e2
    have e3 : (D.projector2 f - A *ᵥ (eighPinv w V tol *ᵥ D.projector2 f)) ⬝ᵥ (D.projector2 f - A *ᵥ (eighPinv w V tol *ᵥ D.projector2 f)) = 0 := by
      rw [dotProduct_sub, e1, e2, sub_zero]
    exact (sub_eq_zero.1 (dotProduct_self_eq_zero.1 e3)).symm


/-- In a shell with Dirichlet conditions there are fields with a curl. -/
theorem shell_curl (h : Admissible ns ps q types F false true D) (ty : Toroidal types) (hn : 3 ≤ ns.1) : D.strongCurl ≠ 0 := by
  intro e
  obtain ⟨a0, a1, a2, a3⟩ := closed_dims_all h ty
  have w := h.cw ty.r ty.t ty.z
  have hr : D.strongCurl.rank = 0 := by rw [e]; exact rank_zero
  have n2 := nullity D.strongDiv
  rw [a2, hr] at n2
  have hm : D.m2 = D.m3 + 1 := by
    have b2 : (codeBetti false true ns.1 ns.2.1).2.2.1 = 2 := rfl
    have b3 : (codeBetti false true ns.1 ns.2.1).2.2.2 = 1 := rfl
    omega
  obtain ⟨S, hS, ⟨hp, rfl⟩ | ⟨hp, rfl⟩⟩ := Admissible.cases' h.built
  · cases hp
  · have d2 := w.d2
    have d3 := w.d3
    simp only [DeRham.ofBoundary] at hm d2 d3
    rw [d2, d3] at hm
    simp [BoundaryOp.rowDims, dk, Dims.n, Dims.n1, Dims.n2, Dims.n3, bcTypes, getDim] at hm
    have hM : 1 ≤ ns.2.1 := w.hM
    have hL : 1 ≤ ns.2.2 := w.hL
    have c1 : 1 ≤ (ns.1 - 2) * ns.2.1 * ns.2.2 := Nat.mul_pos (Nat.mul_pos (by omega) hM) hL
    have c2 : 1 ≤ (ns.1 - 1) * ns.2.1 * ns.2.2 := Nat.mul_pos (Nat.mul_pos (by omega) hM) hL
    omega

theorem cylinder_similarity (s a hh : ℝ) : similarity s 1 0 (cylinderMap a hh) = cylinderMap (s * a) (s * hh) := by
  funext x
  funext i
  simp only [similarity, one_mulVec, cylinderMap]
  fin_cases i <;> simp <;> ring

/-- **C104** the script itself, on cylinders of every radius and height (and with any numbers of splines, degrees and quadrature points it can be called with):
among the cylinders of one shape there is at most one for which the matrix is that of the vector Laplacian. -/
theorem C104_script (n p : Nat) (hn : 3 ≤ n) {a hh s t : ℝ} (hs : 0 < s) (ht : 0 < t) {D D1 D2 : DeRham}
    (h : Admissible (n, n, n) (p, p, p) (2 * p) ("clamped", "periodic", "periodic") (cylinderMap a hh) false true D)
    (h1 : Admissible (n, n, n) (p, p, p) (2 * p) ("clamped", "periodic", "periodic") (cylinderMap (s * a) (s * hh)) false true D1)
    (h2 : Admissible (n, n, n) (p, p, p) (2 * p) ("clamped", "periodic", "periodic") (cylinderMap (t * a) (t * hh)) false true D2)
    (hst : s ≠ t) : ¬ (D1.vectorPoissonMatrix = D1.M2 * D1.dd2 ∧ D2.vectorPoissonMatrix = D2.M2 * D2.dd2) := by
  have c1 : D1 = withMap D (cylinderMap (s * a) (s * hh)) := Except.ok.inj (h1.built.symm.trans (C97_built h.built _))
  have c2 : D2 = withMap D (cylinderMap (t * a) (t * hh)) := Except.ok.inj (h2.built.symm.trans (C97_built h.built _))
  subst c1 c2
  rw [← cylinder_similarity] at h1 h2
  have := C104_one_size hs ht (R := 1) ⟨by simp, by simp⟩ 0 h h1 h2 (shell_curl h ⟨rfl, by decide, by decide⟩ hn) hst
  rwa [cylinder_similarity, cylinder_similarity] at this

/-- Case: the script's sizes, the unit cylinder and the cylinder twice its size. -/
example : ∃ D1 D2 : DeRham, Admissible (6, 6, 6) (2, 2, 2) (2 * 2) ("clamped", "periodic", "periodic") (cylinderMap (1 * 1) (1 * 1)) false true D1 ∧
    Admissible (6, 6, 6) (2, 2, 2) (2 * 2) ("clamped", "periodic", "periodic") (cylinderMap (2 * 1) (2 * 1)) false true D2 ∧
    ¬ (D1.vectorPoissonMatrix = D1.M2 * D1.dd2 ∧ D2.vectorPoissonMatrix = D2.M2 * D2.dd2) := by
  have hs : Sizes (6, 6, 6) (2, 2, 2) (2 * 2) ("clamped", "periodic", "periodic") false :=
    ⟨by norm_num, rfl, by unfold DirOK; norm_num, by unfold DirOK; norm_num, by unfold DirOK; norm_num, by intro h; cases h⟩
  have ad : ∀ c : ℝ, 1 ≤ c → ∃ D, Admissible (6, 6, 6) (2, 2, 2) (2 * 2) ("clamped", "periodic", "periodic") (cylinderMap (c * 1) (c * 1)) false true D := by
    intro c hc
    obtain ⟨D, hD⟩ := hs.built (cylinderMap (c * 1) (c * 1)) true
    refine ⟨D, (C105_cylinder_map_iff (by linarith) hs hD).mpr ?_⟩
    have b := (innermost_bounds (m := 4) (q := 4) (by norm_num) (by norm_num) (by norm_num)).1
    change 1e-5 ≤ 2 * Real.pi * (c * 1) ^ 2 * (c * 1) * innermost 4 4
    push_cast at b
    have k : (1 : ℝ) ≤ (c * 1) ^ 2 * (c * 1) := by
      have := one_le_pow₀ hc (n := 3)
      calc (1 : ℝ) ≤ c ^ 3 := this
        _ = _ := by ring
    have p := Real.pi_gt_three
    calc (1e-5 : ℝ) ≤ 2 * 3 * 1 * (1 / (77 * 4)) := by norm_num
      _ ≤ 2 * Real.pi * ((c * 1) ^ 2 * (c * 1)) * innermost 4 4 := by gcongr
      _ = _ := by ring
  obtain ⟨D, h⟩ := ad 1 le_rfl
  obtain ⟨D2, h2⟩ := ad 2 one_le_two
  refine ⟨D, D2, h, h2, ?_⟩
  refine C104_script 6 2 (by norm_num) (a := 1) (hh := 1) one_pos two_pos (D := D) ?_ h h2 (by norm_num)
  simpa using h

/-- Cases: the other theorems on the standard sequence. -/
example := C104_right_iff (Case.adm false true)
example := C104_energy (Case.adm false true)
example := C104_kernel (Case.adm false true)
example : ∃ w V, IsEigh (symmetrize (Case.D false true).vectorPoissonMatrix) w V ∧ ∃ tol : ℝ, 0 ≤ tol ∧ ∀ k, w k ≠ 0 → tol < |w k| := by
  obtain ⟨w, V, hV⟩ := exists_eigh (A := symmetrize (Case.D false true).vectorPoissonMatrix) (by
    rw [symmetrize_eq (C104_kernel (Case.adm false true)).1.1]; exact (C104_kernel (Case.adm false true)).1.1)
  exact ⟨w, V, hV, 0, le_rfl, fun k hk => abs_pos.2 hk⟩

/-- **C104** the error the script prints is the relative L2 error of the field: it is zero exactly when the computed coefficients are those of the projection of the exact solution. -/
theorem C104_error (h : Admissible ns ps q types F polar dirichlet D) (u v : Fin D.m2 → ℝ) (hv : v ≠ 0) :
    D.coefficientError u v = Real.sqrt (l2Product (D.phys2 (u - v)) (D.phys2 (u - v)) D.S.Q F) / Real.sqrt (l2Product (D.phys2 v) (D.phys2 v) D.S.Q F) ∧
    (D.coefficientError u v = 0 ↔ u = v) := by
  obtain ⟨m0, m1, m2, m3⟩ := C31_mass_matrices_definite h
  have hp : 0 < v ⬝ᵥ D.M2 *ᵥ v := m2.2 v hv
  constructor
  · unfold coefficientError
    rw [← h.M2_l2, ← h.M2_l2, Real.sqrt_div (m2.psd.2 _)]
  · unfold coefficientError
    rw [Real.sqrt_eq_zero (div_nonneg (m2.psd.2 _) hp.le), div_eq_zero_iff, or_iff_left hp.ne']
    constructor
    · intro e
      exact sub_eq_zero.1 (m2.eq_zero e)
    · rintro rfl
      simp

/-- Case: any two coefficient vectors of the standard sequence. -/
example := C104_error (Case.adm false true)

end
end Mrx.Props
