import Verif.Proofs.Case
import Verif.Props.Mass
import Verif.Proofs.Pinv
import Verif.Proofs.CodeComplex3

/-!
# C33, C34, C35: exactness, Hodge Laplacians, Leray projector
-/

set_option linter.unusedSectionVars false
set_option linter.unusedVariables false

namespace Mrx.Props
open Finset Spec Matrix DeRham

section
variable {ns ps : Nat × Nat × Nat} {q : Nat} {types : String × String × String} {F : V3 → V3} {polar dirichlet : Bool} {D : DeRham}

/-! ## C33 -/

theorem D_eq (h : Admissible ns ps q types F polar dirichlet D) :
    D.D0 = D.M1 * D.strongGrad ∧ D.D1 = D.M2 * D.strongCurl ∧ D.D2 = D.M3 * D.strongDiv ∧
    D.weakDiv = -(D.M0⁻¹ * D.D0ᵀ) ∧ D.weakCurl = D.M1⁻¹ * D.D1ᵀ ∧ D.weakGrad = -(D.M2⁻¹ * D.D2ᵀ) := by
  obtain ⟨m0, m1, m2, m3⟩ := C31_mass_matrices_definite h
  refine ⟨?_, ?_, ?_, ?_, ?_, ?_⟩
  · unfold strongGrad solve; rw [← Matrix.mul_assoc, m1.mul_inv, Matrix.one_mul]
  · unfold strongCurl solve; rw [← Matrix.mul_assoc, m2.mul_inv, Matrix.one_mul]
  · unfold strongDiv solve; rw [← Matrix.mul_assoc, m3.mul_inv, Matrix.one_mul]
  · unfold weakDiv solve; rw [m0.1]
  · unfold weakCurl solve; rw [m1.1]
  · unfold weakGrad solve; rw [m2.1]

/-- **C33** curl grad = 0 and div curl = 0, for the strong operators and for the weak ones, for every admissible sequence: polar or
not, all combinations of basis types and resolutions, every map regular at the quadrature points. (That holds also for the resolutions for
which the tabulated derivatives are wrong, see C20: the wrong difference operators of the getters still commute. When they are the exterior
derivatives is the subject of C76.) -/
theorem C33_exactness (h : Admissible ns ps q types F polar dirichlet D) :
    D.strongCurl * D.strongGrad = 0 ∧ D.strongDiv * D.strongCurl = 0 ∧
    D.weakDiv * D.weakCurl = 0 ∧ D.weakCurl * D.weakGrad = 0 := by
  obtain ⟨m0, m1, m2, m3⟩ := C31_mass_matrices_definite h
  obtain ⟨d0, d1, d2, w0, w1, w2⟩ := D_eq h
  have cg := h.complex.curl_grad
  have dc := h.complex.div_curl
  refine ⟨cg, dc, ?_, ?_⟩
  · have : D.D0ᵀ * (D.M1⁻¹ * D.D1ᵀ) = 0 := by
      have e : D.D0ᵀ * (D.M1⁻¹ * D.D1ᵀ) = (D.M2 * (D.strongCurl * D.strongGrad))ᵀ := by
        rw [d0, d1]
        simp only [transpose_mul, m1.1, m2.1, Matrix.mul_assoc]
        rw [← Matrix.mul_assoc D.M1, m1.mul_inv, Matrix.one_mul]
      rw [e, cg, Matrix.mul_zero, transpose_zero]
    rw [w0, w1, Matrix.neg_mul, Matrix.mul_assoc, this, Matrix.mul_zero, neg_zero]
  · have : D.D1ᵀ * (D.M2⁻¹ * D.D2ᵀ) = 0 := by
      have e : D.D1ᵀ * (D.M2⁻¹ * D.D2ᵀ) = (D.M3 * (D.strongDiv * D.strongCurl))ᵀ := by
        rw [d1, d2]
        simp only [transpose_mul, m2.1, m3.1, Matrix.mul_assoc]
        rw [← Matrix.mul_assoc D.M2, m2.mul_inv, Matrix.one_mul]
      rw [e, dc, Matrix.mul_zero, transpose_zero]
    rw [w1, w2, Matrix.mul_neg, Matrix.mul_assoc, this, Matrix.mul_zero, neg_zero]

/-- **C76** (for the basis types and sizes of `Compatible`; for no other sizes: ExactIff2) the strong operators act on the (extracted) coefficients as the integer incidence
matrices: differences of neighbouring coefficients, with no dependence on the map or the quadrature rule. -/
theorem C76_operators_are_incidence (h : Admissible ns ps q types F polar dirichlet D) (hc : Compatible ns types dirichlet) :
    (∀ y c i j l, D.S.L1.dims.InRange c i j l → coef D.S.L1.dims (D.E1ᵀ *ᵥ (D.strongGrad *ᵥ y)) c i j l
      = extDeriv D.S.L0.dims (coef D.S.L0.dims (D.E0ᵀ *ᵥ y)) c i j l) ∧
    (∀ y c i j l, D.S.L2.dims.InRange c i j l → coef D.S.L2.dims (D.E2ᵀ *ᵥ (D.strongCurl *ᵥ y)) c i j l
      = extDeriv D.S.L1.dims (coef D.S.L1.dims (D.E1ᵀ *ᵥ y)) c i j l) ∧
    (∀ y c i j l, D.S.L3.dims.InRange c i j l → coef D.S.L3.dims (D.E3ᵀ *ᵥ (D.strongDiv *ᵥ y)) c i j l
      = extDeriv D.S.L2.dims (coef D.S.L2.dims (D.E2ᵀ *ᵥ y)) c i j l) :=
  have he := h.exact hc
  ⟨fun y => (grad_spec he y).2, fun y => (curl_spec he y).2, fun y => (div_spec he y).2⟩

/-- non-vacuity: both polar and not, with the Dirichlet flag, and a square case without it. -/
example : (∃ D, Admissible (5, 6, 4) (3, 2, 1) 4 ("clamped", "periodic", "periodic") (fun y => y) true true D ∧
    Compatible (5, 6, 4) ("clamped", "periodic", "periodic") true) ∧
    ∃ D, Admissible (5, 5, 1) (3, 2, 0) 4 ("clamped", "periodic", "constant") (fun y => y) false false D ∧
    Compatible (5, 5, 1) ("clamped", "periodic", "constant") false := by
  constructor
  · obtain ⟨D, h⟩ := Admissible.example true true
    exact ⟨D, h, by constructor <;> simp⟩
  · obtain ⟨D, h⟩ := Admissible.exists (ns := (5, 5, 1)) (ps := (3, 2, 0)) (q := 4) (types := ("clamped", "periodic", "constant"))
      (fun y => y) false false (by norm_num) (by unfold DirOK; norm_num) (by unfold DirOK; norm_num) (by unfold DirOK; norm_num)
      (by simp) fun x => by rw [jacobianDeterminant_id]; norm_num
    exact ⟨D, h, by constructor <;> simp⟩

/-! ## C34 -/

theorem mass_dd (h : Admissible ns ps q types F polar dirichlet D) :
    (D.M0 * D.dd0 = D.E0 * assemble D.S.getDLambda0 D.S.getDLambda0 D.nq 3 D.W1 D.S.L0.dims.n D.S.L0.dims.n * D.E0ᵀ) ∧
    (D.M1 * D.dd1 = D.E1 * assemble D.S.getDLambda1 D.S.getDLambda1 D.nq 3 D.W2 D.S.L1.dims.n D.S.L1.dims.n * D.E1ᵀ
      + D.D0 * D.M0⁻¹ * D.D0ᵀ) ∧
    (D.M2 * D.dd2 = D.E2 * assemble D.S.getDLambda2 D.S.getDLambda2 D.nq 1 D.W3 D.S.L2.dims.n D.S.L2.dims.n * D.E2ᵀ
      + D.D1 * D.M1⁻¹ * D.D1ᵀ) ∧
    (D.M3 * D.dd3 = D.D2 * D.M2⁻¹ * D.D2ᵀ) := by
  obtain ⟨m0, m1, m2, m3⟩ := C31_mass_matrices_definite h
  obtain ⟨d0, d1, d2, w0, w1, w2⟩ := D_eq h
  refine ⟨?_, ?_, ?_, ?_⟩
  · unfold dd0 solve; rw [← Matrix.mul_assoc, m0.mul_inv, Matrix.one_mul]
  · unfold dd1
    rw [Matrix.mul_sub, ← Matrix.mul_assoc D.M1 D.strongGrad, ← d0, w0, Matrix.mul_neg, sub_neg_eq_add, Matrix.mul_assoc D.D0]
    unfold solve; rw [← Matrix.mul_assoc, m1.mul_inv, Matrix.one_mul]
  · unfold dd2
    rw [Matrix.mul_add, ← Matrix.mul_assoc D.M2 D.strongCurl, ← d1, w1, Matrix.mul_assoc D.D1]
    unfold solve; rw [← Matrix.mul_assoc, m2.mul_inv, Matrix.one_mul]
  · unfold dd3
    rw [Matrix.neg_mul, Matrix.mul_neg, ← Matrix.mul_assoc, ← d2, w2, Matrix.mul_neg, neg_neg, Matrix.mul_assoc]

/-- **C34** for every admissible sequence the four Hodge Laplacians are symmetric positive semidefinite in the mass inner products. -/
theorem C34_laplacians_semidefinite (h : Admissible ns ps q types F polar dirichlet D) :
    SPSD (D.M0 * D.dd0) ∧ SPSD (D.M1 * D.dd1) ∧ SPSD (D.M2 * D.dd2) ∧ SPSD (D.M3 * D.dd3) := by
  obtain ⟨m0, m1, m2, m3⟩ := C31_mass_matrices_definite h
  obtain ⟨e0, e1, e2, e3⟩ := mass_dd h
  have hcore := h.core
  rw [e0, e1, e2, e3]
  exact ⟨(assemble_psd _ _ fun j hj => (W1_spd hcore hj).psd).congr _,
    ((assemble_psd _ _ fun j hj => (W2_spd hcore hj).psd).congr _).add (m0.inv.psd.congr _),
    ((assemble_psd _ _ fun j hj => (W3_spd hcore hj).psd).congr _).add (m1.inv.psd.congr _), m2.inv.psd.congr _⟩

theorem stiff_dot {m n m' n' d nq : Nat} (g g' : Getter) (W : Nat → Matrix (Fin d) (Fin d) ℝ) (E : Matrix (Fin m) (Fin n) ℝ)
    (E' : Matrix (Fin m') (Fin n') ℝ) (v : Fin m → ℝ) (w : Fin m' → ℝ)
    (hf : ∀ j k, k < d → evaluateAtXq g (Eᵀ *ᵥ v) j k = evaluateAtXq g' (E'ᵀ *ᵥ w) j k) :
    v ⬝ᵥ (E * assemble g g nq d W n n * Eᵀ) *ᵥ v = w ⬝ᵥ (E' * assemble g' g' nq d W n' n' * E'ᵀ) *ᵥ w := by
  rw [Admissible.mass_dot, Admissible.mass_dot]
  refine Finset.sum_congr rfl fun j _ => ?_
  have : (fun k : Fin d => evaluateAtXq g (Eᵀ *ᵥ v) j k) = fun k : Fin d => evaluateAtXq g' (E'ᵀ *ᵥ w) j k := by
    funext k; exact hf j k k.2
  rw [this]

theorem codiff_dot {n m : Nat} {M : Matrix (Fin m) (Fin m) ℝ} (hM : SPD M) (C : Matrix (Fin n) (Fin m) ℝ) (v : Fin n → ℝ) :
    v ⬝ᵥ (C * M⁻¹ * Cᵀ) *ᵥ v = ((M⁻¹ * Cᵀ) *ᵥ v) ⬝ᵥ M *ᵥ ((M⁻¹ * Cᵀ) *ᵥ v) := by
  have e : M *ᵥ ((M⁻¹ * Cᵀ) *ᵥ v) = Cᵀ *ᵥ v := by
    rw [mulVec_mulVec, ← Matrix.mul_assoc M, hM.mul_inv, Matrix.one_mul]
  rw [e, Matrix.mul_assoc, ← mulVec_mulVec, transpose_dot, dotProduct_comm]

/-- **C34** energy identities: the quadratic forms of the Laplacians are the squared norms of the derivative
and the weak codifferential. -/
theorem C34_energy_identities (h : Admissible ns ps q types F polar dirichlet D) :
    (∀ v, v ⬝ᵥ (D.M0 * D.dd0) *ᵥ v = (D.strongGrad *ᵥ v) ⬝ᵥ D.M1 *ᵥ (D.strongGrad *ᵥ v)) ∧
    (∀ v, v ⬝ᵥ (D.M1 * D.dd1) *ᵥ v = (D.strongCurl *ᵥ v) ⬝ᵥ D.M2 *ᵥ (D.strongCurl *ᵥ v)
      + (D.weakDiv *ᵥ v) ⬝ᵥ D.M0 *ᵥ (D.weakDiv *ᵥ v)) ∧
    (∀ v, v ⬝ᵥ (D.M2 * D.dd2) *ᵥ v = (D.strongDiv *ᵥ v) ⬝ᵥ D.M3 *ᵥ (D.strongDiv *ᵥ v)
      + (D.weakCurl *ᵥ v) ⬝ᵥ D.M1 *ᵥ (D.weakCurl *ᵥ v)) := by
  obtain ⟨m0, m1, m2, m3⟩ := C31_mass_matrices_definite h
  obtain ⟨e0, e1, e2, e3⟩ := mass_dd h
  obtain ⟨d0, d1, d2, w0, w1, w2⟩ := D_eq h
  rw [e0, e1, e2]
  refine ⟨fun v => ?_, fun v => ?_, fun v => ?_⟩
  · exact stiff_dot _ _ D.W1 D.E0 D.E1 v _ fun j k hk => (h.complex.grad v).1 j k hk
  · rw [add_mulVec, dotProduct_add, codiff_dot m0, w0, neg_mulVec, mulVec_neg, dotProduct_neg, neg_dotProduct, neg_neg]
    congr 1
    exact stiff_dot _ _ D.W2 D.E1 D.E2 v _ fun j k hk => (h.complex.curl v).1 j k hk
  · rw [add_mulVec, dotProduct_add, codiff_dot m1, w1]
    congr 1
    exact stiff_dot _ _ D.W3 D.E2 D.E3 v _ fun j k _ => (h.complex.div v).1 j k

/-- Case: the standard case. -/
example (polar dirichlet : Bool) := C34_energy_identities (Case.adm polar dirichlet)

theorem C34_energy_identity_3 (h : Admissible ns ps q types F polar dirichlet D) (v : Fin D.m3 → ℝ) :
    v ⬝ᵥ (D.M3 * D.dd3) *ᵥ v = (D.weakGrad *ᵥ v) ⬝ᵥ D.M2 *ᵥ (D.weakGrad *ᵥ v) := by
  obtain ⟨m0, m1, m2, m3⟩ := C31_mass_matrices_definite h
  obtain ⟨d0, d1, d2, w0, w1, w2⟩ := D_eq h
  rw [(mass_dd h).2.2.2, codiff_dot m2, w2, neg_mulVec, mulVec_neg, dotProduct_neg, neg_dotProduct, neg_neg]

/-- Case: the standard case. -/
example (polar dirichlet : Bool) := C34_energy_identity_3 (Case.adm polar dirichlet)

theorem ker_iff {n : Nat} {M A : Matrix (Fin n) (Fin n) ℝ} (hM : SPD M) (hA : SPSD (M * A)) (v : Fin n → ℝ) :
    A *ᵥ v = 0 ↔ v ⬝ᵥ (M * A) *ᵥ v = 0 := by
  constructor
  · intro h0; rw [← mulVec_mulVec, h0, mulVec_zero, dotProduct_zero]
  · intro h0
    have := hA.mulVec_eq_zero h0
    rw [← mulVec_mulVec] at this
    have e : M⁻¹ *ᵥ (M *ᵥ (A *ᵥ v)) = A *ᵥ v := by rw [mulVec_mulVec, hM.inv_mul, one_mulVec]
    rw [← e, this, mulVec_zero]

/-- **C34** the kernels are exactly the discrete harmonic fields: closed and co-closed. -/
theorem C34_kernels_are_harmonic (h : Admissible ns ps q types F polar dirichlet D) :
    (∀ v, D.dd0 *ᵥ v = 0 ↔ D.strongGrad *ᵥ v = 0) ∧
    (∀ v, D.dd1 *ᵥ v = 0 ↔ D.strongCurl *ᵥ v = 0 ∧ D.weakDiv *ᵥ v = 0) ∧
    (∀ v, D.dd2 *ᵥ v = 0 ↔ D.strongDiv *ᵥ v = 0 ∧ D.weakCurl *ᵥ v = 0) ∧
    (∀ v, D.dd3 *ᵥ v = 0 ↔ D.weakGrad *ᵥ v = 0) := by
  obtain ⟨m0, m1, m2, m3⟩ := C31_mass_matrices_definite h
  obtain ⟨s0, s1, s2, s3⟩ := C34_laplacians_semidefinite h
  obtain ⟨e0, e1, e2⟩ := C34_energy_identities h
  have z : ∀ {n : Nat} {M : Matrix (Fin n) (Fin n) ℝ} (hM : SPD M) (x : Fin n → ℝ), x ⬝ᵥ M *ᵥ x = 0 ↔ x = 0 :=
    fun hM x => ⟨hM.eq_zero, fun h0 => by rw [h0, zero_dotProduct]⟩
  have zz : ∀ {n m : Nat} {M : Matrix (Fin n) (Fin n) ℝ} {N : Matrix (Fin m) (Fin m) ℝ} (hM : SPD M) (hN : SPD N) (x : Fin n → ℝ)
      (y : Fin m → ℝ), x ⬝ᵥ M *ᵥ x + y ⬝ᵥ N *ᵥ y = 0 ↔ x = 0 ∧ y = 0 := by
    intro n m M N hM hN x y
    rw [add_eq_zero_iff_of_nonneg (hM.psd.2 x) (hN.psd.2 y), z hM, z hN]
  refine ⟨fun v => ?_, fun v => ?_, fun v => ?_, fun v => ?_⟩
  · rw [ker_iff m0 s0, e0, z m1]
  · rw [ker_iff m1 s1, e1, zz m2 m0]
  · rw [ker_iff m2 s2, e2, zz m3 m1]
  · rw [ker_iff m3 s3, C34_energy_identity_3 h, z m2]

/-- Case: the standard case. -/
example (polar dirichlet : Bool) := C34_kernels_are_harmonic (Case.adm polar dirichlet)

/-- **C34** the assembled Laplacians are `d d* + d* d`, although they are assembled from the derivatives of the
basis functions: for every degree the same operator as the composition of the strong derivative and the weak codifferential. -/
theorem C34_laplacians_are_hodge (h : Admissible ns ps q types F polar dirichlet D) :
    D.dd0 = -(D.weakDiv * D.strongGrad) ∧ D.dd1 = D.weakCurl * D.strongCurl - D.strongGrad * D.weakDiv ∧
      D.dd2 = -(D.weakGrad * D.strongDiv) + D.strongCurl * D.weakCurl := by
  obtain ⟨m0, m1, m2, m3⟩ := C31_mass_matrices_definite h
  obtain ⟨s0, s1, s2, s3⟩ := C34_laplacians_semidefinite h
  obtain ⟨e0, e1, e2⟩ := C34_energy_identities h
  obtain ⟨cg, dc, wdc, wcg⟩ := C33_exactness h
  obtain ⟨d0, d1, d2, w0, w1, w2⟩ := D_eq h
  -- polarisation
  have pol : ∀ {n : Nat} {A B : Matrix (Fin n) (Fin n) ℝ}, Aᵀ = A → Bᵀ = B → (∀ v, v ⬝ᵥ A *ᵥ v = v ⬝ᵥ B *ᵥ v) → A = B := by
    intro n A B hA hB hv
    refine ext_dot fun x y => ?_
    have e := hv (x + y)
    simp only [mulVec_add, dotProduct_add, add_dotProduct] at e
    rw [sym_dot hA y x, sym_dot hB y x] at e
    have := hv x; have := hv y
    linarith
  have symc : ∀ {n m : Nat} (S : Matrix (Fin n) (Fin m) ℝ) {M : Matrix (Fin n) (Fin n) ℝ}, Mᵀ = M → (Sᵀ * M * S)ᵀ = Sᵀ * M * S := by
    intro n m S M hM
    rw [transpose_mul, transpose_mul, transpose_transpose, hM, Matrix.mul_assoc]
  have sd : ∀ {n m : Nat} (S : Matrix (Fin n) (Fin m) ℝ) (M : Matrix (Fin n) (Fin n) ℝ) (v : Fin m → ℝ),
      v ⬝ᵥ (Sᵀ * M * S) *ᵥ v = (S *ᵥ v) ⬝ᵥ M *ᵥ (S *ᵥ v) := by
    intro n m S M v
    rw [← mulVec_mulVec, ← mulVec_mulVec, transpose_dot, transpose_transpose]
  have a0 : D.dd0 = -(D.weakDiv * D.strongGrad) := by
    have : D.M0 * D.dd0 = D.strongGradᵀ * D.M1 * D.strongGrad := pol s0.1 (symc _ m1.1) fun v => by rw [e0, sd]
    have e : D.dd0 = D.M0⁻¹ * (D.M0 * D.dd0) := by rw [← Matrix.mul_assoc, m0.inv_mul, Matrix.one_mul]
    rw [e, this, w0, d0, Matrix.neg_mul, neg_neg, transpose_mul, m1.1]
    simp only [Matrix.mul_assoc]
  have a1 : D.dd1 = D.weakCurl * D.strongCurl - D.strongGrad * D.weakDiv := by
    have : D.M1 * D.dd1 = D.strongCurlᵀ * D.M2 * D.strongCurl + D.weakDivᵀ * D.M0 * D.weakDiv :=
      pol s1.1 (by rw [transpose_add, symc _ m2.1, symc _ m0.1]) fun v => by rw [e1, add_mulVec, dotProduct_add, sd, sd]
    have e : D.dd1 = D.M1⁻¹ * (D.M1 * D.dd1) := by rw [← Matrix.mul_assoc, m1.inv_mul, Matrix.one_mul]
    rw [e, this, Matrix.mul_add, sub_eq_add_neg]
    congr 1
    · rw [w1, d1, transpose_mul, m2.1]; simp only [Matrix.mul_assoc]
    · have : D.weakDivᵀ * D.M0 = -D.D0 := by
        rw [w0, transpose_neg, transpose_mul, transpose_transpose, m0.inv_sym, Matrix.neg_mul, Matrix.mul_assoc, m0.inv_mul, Matrix.mul_one]
      rw [this, d0, Matrix.neg_mul, Matrix.mul_neg, Matrix.mul_assoc, ← Matrix.mul_assoc D.M1⁻¹, m1.inv_mul, Matrix.one_mul]
  have a2 : D.dd2 = -(D.weakGrad * D.strongDiv) + D.strongCurl * D.weakCurl := by
    have : D.M2 * D.dd2 = D.strongDivᵀ * D.M3 * D.strongDiv + D.weakCurlᵀ * D.M1 * D.weakCurl :=
      pol s2.1 (by rw [transpose_add, symc _ m3.1, symc _ m1.1]) fun v => by rw [e2, add_mulVec, dotProduct_add, sd, sd]
    have e : D.dd2 = D.M2⁻¹ * (D.M2 * D.dd2) := by rw [← Matrix.mul_assoc, m2.inv_mul, Matrix.one_mul]
    rw [e, this, Matrix.mul_add]
    congr 1
    · rw [w2, d2, transpose_mul, m3.1, Matrix.neg_mul, neg_neg]; simp only [Matrix.mul_assoc]
    · have : D.weakCurlᵀ * D.M1 = D.D1 := by
        rw [w1, transpose_mul, transpose_transpose, m1.inv_sym, Matrix.mul_assoc, m1.inv_mul, Matrix.mul_one]
      rw [this, d1, Matrix.mul_assoc, ← Matrix.mul_assoc D.M2⁻¹, m2.inv_mul, Matrix.one_mul]
  exact ⟨a0, a1, a2⟩

/-- Case: the standard case. -/
example (polar dirichlet : Bool) := C34_laplacians_are_hodge (Case.adm polar dirichlet)

/-- **C34** the Laplacian of a gradient is the gradient of the Laplacian, and likewise for the curl and the divergence. -/
theorem C34_laplacians_commute (h : Admissible ns ps q types F polar dirichlet D) :
    D.dd1 * D.strongGrad = D.strongGrad * D.dd0 ∧ D.dd2 * D.strongCurl = D.strongCurl * D.dd1 ∧
      D.dd3 * D.strongDiv = D.strongDiv * D.dd2 := by
  obtain ⟨a0, a1, a2⟩ := C34_laplacians_are_hodge h
  obtain ⟨cg, dc, wdc, wcg⟩ := C33_exactness h
  refine ⟨?_, ?_, ?_⟩
  · rw [a1, a0, Matrix.sub_mul, Matrix.mul_assoc, cg, Matrix.mul_zero, zero_sub, Matrix.mul_neg, Matrix.mul_assoc]
  · rw [a2, a1, Matrix.add_mul, Matrix.neg_mul, Matrix.mul_assoc, dc, Matrix.mul_zero, neg_zero, zero_add, Matrix.mul_sub,
      ← Matrix.mul_assoc D.strongCurl D.strongGrad, cg, Matrix.zero_mul, sub_zero, Matrix.mul_assoc]
  · rw [a2, Matrix.mul_add, ← Matrix.mul_assoc D.strongDiv D.strongCurl, dc, Matrix.zero_mul, add_zero]
    unfold dd3
    rw [Matrix.neg_mul, Matrix.neg_mul, Matrix.mul_neg, Matrix.mul_assoc]

/-- Case: the standard case. -/
example (polar dirichlet : Bool) := C34_laplacians_commute (Case.adm polar dirichlet)

/-! ## C35 -/

theorem leray_div (h : Admissible ns ps q types F polar dirichlet D) {X : Matrix (Fin D.m3) (Fin D.m3) ℝ}
    (hX : D.dd3 * X * D.dd3 = D.dd3) : D.strongDiv * D.leray X = 0 := by
  obtain ⟨m0, m1, m2, m3⟩ := C31_mass_matrices_definite h
  obtain ⟨d0, d1, d2, w0, w1, w2⟩ := D_eq h
  set S := D.strongDiv with hS
  have hdd : D.dd3 = S * D.M2⁻¹ * Sᵀ * D.M3 := by
    have : D.dd3 = D.M3⁻¹ * (D.M3 * D.dd3) := by rw [← Matrix.mul_assoc, m3.inv_mul, Matrix.one_mul]
    rw [this, (mass_dd h).2.2.2, d2, transpose_mul, m3.1]
    simp only [← Matrix.mul_assoc]
    rw [m3.inv_mul, Matrix.one_mul]
  set Q := 1 - D.dd3 * X with hQ
  have hSP : S * D.leray X = Q * S := by
    unfold DeRham.leray
    rw [Matrix.mul_add, Matrix.mul_one, hQ, Matrix.sub_mul, Matrix.one_mul, sub_eq_add_neg]
    congr 1
    have : D.dd3 = -(S * D.weakGrad) := by unfold dd3; rw [Matrix.neg_mul, ← hS]
    rw [this, Matrix.neg_mul, Matrix.neg_mul, neg_neg]
    simp only [Matrix.mul_assoc]
    rw [← hS]
  have hQA : Q * (S * D.M2⁻¹ * Sᵀ) = 0 := by
    have h0 : Q * D.dd3 = 0 := by rw [hQ, Matrix.sub_mul, Matrix.one_mul, hX, sub_self]
    have e : Q * (S * D.M2⁻¹ * Sᵀ) = Q * D.dd3 * D.M3⁻¹ := by
      rw [hdd]; simp only [Matrix.mul_assoc]; rw [m3.mul_inv, Matrix.mul_one]
    rw [e, h0, Matrix.zero_mul]
  rw [hSP]
  -- (Q S) M2⁻¹ (Q S)ᵀ = 0
  have h0 : (Q * S) * D.M2⁻¹ * (Q * S)ᵀ = 0 := by
    have : (Q * S) * D.M2⁻¹ * (Q * S)ᵀ = Q * (S * D.M2⁻¹ * Sᵀ) * Qᵀ := by
      rw [transpose_mul]; simp only [Matrix.mul_assoc]
    rw [this, hQA, Matrix.zero_mul]
  have ht : (Q * S)ᵀ = 0 := by
    refine ext_mulVec fun y => ?_
    rw [zero_mulVec]
    apply m2.inv.eq_zero
    have : ((Q * S)ᵀ *ᵥ y) ⬝ᵥ D.M2⁻¹ *ᵥ ((Q * S)ᵀ *ᵥ y) = y ⬝ᵥ ((Q * S) * D.M2⁻¹ * (Q * S)ᵀ) *ᵥ y := by
      rw [← mulVec_mulVec, ← mulVec_mulVec, transpose_dot (Q * S)]
    rw [this, h0, zero_mulVec, dotProduct_zero]
  rw [← transpose_transpose (Q * S), ht, transpose_zero]

/-- **C35** For every admissible sequence and the pseudo-inverse `X` of `dd3`, the Leray projector maps every field to a
divergence-free one, is idempotent, fixes divergence-free fields, and is self-adjoint in the M2 inner product. -/
theorem C35_leray_projects (h : Admissible ns ps q types F polar dirichlet D) (X : Matrix (Fin D.m3) (Fin D.m3) ℝ)
    (hX : IsPinv D.dd3 X) :
    (∀ v, D.strongDiv *ᵥ (D.leray X *ᵥ v) = 0) ∧ D.leray X * D.leray X = D.leray X ∧
    (∀ v, D.strongDiv *ᵥ v = 0 → D.leray X *ᵥ v = v) ∧
    (∀ u v, (D.leray X *ᵥ u) ⬝ᵥ D.M2 *ᵥ v = u ⬝ᵥ D.M2 *ᵥ (D.leray X *ᵥ v)) := by
  obtain ⟨m0, m1, m2, m3⟩ := C31_mass_matrices_definite h
  obtain ⟨d0, d1, d2, w0, w1, w2⟩ := D_eq h
  have hdiv := leray_div h hX.axa
  have hd : ∀ v, D.strongDiv *ᵥ (D.leray X *ᵥ v) = 0 := fun v => by rw [mulVec_mulVec, hdiv, zero_mulVec]
  have hfix : ∀ v, D.strongDiv *ᵥ v = 0 → D.leray X *ᵥ v = v := fun v hv => by
    unfold DeRham.leray
    rw [add_mulVec, one_mulVec, ← mulVec_mulVec, hv, mulVec_zero, add_zero]
  refine ⟨hd, ext_mulVec fun y => by rw [← mulVec_mulVec]; exact hfix _ (hd y), hfix, ?_⟩
  -- the complement is orthogonal to divergence-free fields
  have orth : ∀ u v, D.strongDiv *ᵥ u = 0 → u ⬝ᵥ D.M2 *ᵥ v = u ⬝ᵥ D.M2 *ᵥ (D.leray X *ᵥ v) := by
    intro u v hu
    have e : D.leray X *ᵥ v = v + D.weakGrad *ᵥ (X *ᵥ (D.strongDiv *ᵥ v)) := by
      unfold DeRham.leray
      rw [add_mulVec, one_mulVec, ← mulVec_mulVec, ← mulVec_mulVec]
    have adj := (C32_adjoint_operators h.built m0.det m1.det m2.det m3.det).2.2 u (X *ᵥ (D.strongDiv *ᵥ v))
    rw [hu, zero_dotProduct] at adj
    rw [e, mulVec_add, dotProduct_add]
    linarith
  intro u v
  rw [orth _ v (hd u), sym_dot m2.1, sym_dot m2.1 u, orth _ u (hd v)]

/-- Case: the standard case. -/
example (polar dirichlet : Bool) := C35_leray_projects (Case.adm polar dirichlet) _ (pinv_exists (Case.D polar dirichlet).dd3).choose_spec

/-- **C35** the projection is the closest divergence-free field: `v - P v` is M2-orthogonal to all divergence-free fields. -/
theorem C35_leray_residual_orthogonal (h : Admissible ns ps q types F polar dirichlet D) (X : Matrix (Fin D.m3) (Fin D.m3) ℝ)
    (hX : IsPinv D.dd3 X) (u v : Fin D.m2 → ℝ) (hu : D.strongDiv *ᵥ u = 0) : u ⬝ᵥ D.M2 *ᵥ (v - D.leray X *ᵥ v) = 0 := by
  obtain ⟨_, _, fx, sa⟩ := C35_leray_projects h X hX
  rw [mulVec_sub, dotProduct_sub, ← sa, fx u hu, sub_self]

/-- non-vacuity: the pseudo-inverse exists (and is unique) for every sequence. -/
example : ∃ D X, Admissible (5, 6, 4) (3, 2, 1) 4 ("clamped", "periodic", "periodic") (fun y => y) true true D ∧ IsPinv D.dd3 X := by
  obtain ⟨D, h⟩ := Admissible.example true true
  obtain ⟨X, hX⟩ := pinv_exists D.dd3
  exact ⟨D, X, h, hX⟩

end
end Mrx.Props
