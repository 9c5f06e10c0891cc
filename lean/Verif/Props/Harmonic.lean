import Verif.Proofs.Case
import Verif.Proofs.Cohomology2
import Verif.Props.Laplace
import Verif.Props.Helicity
import Verif.Spec.Topology

/-!
# C73: harmonic fields, potentials and the solvability of the Hodge-Laplace problems
-/

set_option linter.unusedSectionVars false
set_option linter.unusedVariables false

namespace Mrx.Props
open Finset Spec Matrix DeRham Module

section
variable {ns ps : Nat × Nat × Nat} {q : Nat} {types : String × String × String} {F : V3 → V3} {polar dirichlet : Bool} {D : DeRham}

theorem rank_codiff {n m : Nat} {M : Matrix (Fin n) (Fin n) ℝ} {M' : Matrix (Fin m) (Fin m) ℝ} (hM : SPD M) (hM' : SPD M')
    (G : Matrix (Fin m) (Fin n) ℝ) : (M⁻¹ * (M' * G)ᵀ).rank = G.rank := by
  have u : IsUnit M'.det := by
    rw [← isUnit_iff_isUnit_det]
    exact IsUnit.of_mul_eq_one _ hM'.mul_inv
  have v : IsUnit (M⁻¹).det := by
    rw [← isUnit_iff_isUnit_det]
    exact IsUnit.of_mul_eq_one _ hM.inv_mul
  rw [rank_mul_eq_right_of_isUnit_det _ _ v, rank_transpose, rank_mul_eq_right_of_isUnit_det _ _ u]

theorem mulVec_dot {n m : Nat} (A : Matrix (Fin n) (Fin m) ℝ) (x : Fin m → ℝ) (w : Fin n → ℝ) : (A *ᵥ x) ⬝ᵥ w = x ⬝ᵥ Aᵀ *ᵥ w := by
  rw [dotProduct_comm x, mulVec_transpose, ← dotProduct_mulVec, dotProduct_comm]

theorem rank_neg {n m : Nat} (A : Matrix (Fin n) (Fin m) ℝ) : (-A).rank = A.rank := by
  have : (-A).mulVecLin = -A.mulVecLin := by ext v i; simp
  rw [Matrix.rank, this, LinearMap.range_neg]; rfl

theorem rank_eq {n m : Nat} (A : Matrix (Fin n) (Fin m) ℝ) : finrank ℝ (LinearMap.range A.mulVecLin) = A.rank := rfl

theorem nullity {n m : Nat} (A : Matrix (Fin n) (Fin m) ℝ) : A.rank + finrank ℝ (LinearMap.ker A.mulVecLin) = m := by
  have := LinearMap.finrank_range_add_finrank_ker A.mulVecLin
  simpa [Matrix.rank] using this

theorem codiff_ranks (h : Admissible ns ps q types F polar dirichlet D) :
    D.weakDiv.rank = D.strongGrad.rank ∧ D.weakCurl.rank = D.strongCurl.rank ∧ D.weakGrad.rank = D.strongDiv.rank := by
  obtain ⟨m0, m1, m2, m3⟩ := C31_mass_matrices_definite h
  obtain ⟨d0, d1, d2, w0, w1, w2⟩ := D_eq h
  refine ⟨?_, ?_, ?_⟩
  · rw [w0, rank_neg, d0, rank_codiff m0 m1]
  · rw [w1, d1, rank_codiff m1 m2]
  · rw [w2, rank_neg, d2, rank_codiff m2 m3]

/-- From closed modulo exact forms to harmonic fields. -/
theorem harmonic_dims_of (h : Admissible ns ps q types F polar dirichlet D) {b0 b1 b2 b3 : Nat}
    (a0 : finrank ℝ (LinearMap.ker D.strongGrad.mulVecLin) = b0) (a1 : finrank ℝ (LinearMap.ker D.strongCurl.mulVecLin) = D.strongGrad.rank + b1)
    (a2 : finrank ℝ (LinearMap.ker D.strongDiv.mulVecLin) = D.strongCurl.rank + b2) (a3 : D.m3 = D.strongDiv.rank + b3) :
    finrank ℝ (LinearMap.ker D.dd0.mulVecLin) = b0 ∧ finrank ℝ (LinearMap.ker D.dd1.mulVecLin) = b1 ∧
    finrank ℝ (LinearMap.ker D.dd2.mulVecLin) = b2 ∧ finrank ℝ (LinearMap.ker D.dd3.mulVecLin) = b3 := by
  obtain ⟨k0, k1, k2, k3⟩ := C34_kernels_are_harmonic h
  obtain ⟨r0, r1, r2⟩ := codiff_ranks h
  obtain ⟨l0, _, _⟩ := C34_laplacians_are_hodge h
  obtain ⟨cg, dc, _, _⟩ := C33_exactness h
  obtain ⟨m0, m1, m2, m3⟩ := C31_mass_matrices_definite h
  obtain ⟨d0, d1, d2, w0, w1, w2⟩ := D_eq h
  refine ⟨?_, ?_, ?_, ?_⟩
  · have e : LinearMap.ker D.dd0.mulVecLin = LinearMap.ker D.strongGrad.mulVecLin := by
      ext v
      simp only [LinearMap.mem_ker, mulVecLin_apply]; exact k0 v
    rw [e, a0]
  · have e : LinearMap.ker D.dd1.mulVecLin = LinearMap.ker D.strongCurl.mulVecLin ⊓ LinearMap.ker D.weakDiv.mulVecLin := by
      ext v
      simp only [Submodule.mem_inf, LinearMap.mem_ker, mulVecLin_apply]; exact k1 v
    have := finrank_harmonic D.strongGrad.mulVecLin D.strongCurl.mulVecLin D.weakDiv.mulVecLin
      (fun x => by simp only [mulVecLin_apply, mulVec_mulVec, cg, zero_mulVec])
      (fun x hx => by
        simp only [mulVecLin_apply, mulVec_mulVec] at hx ⊢
        rw [← k0, l0, neg_mulVec, hx, neg_zero]) r0
    rw [e]
    rw [rank_eq] at this
    omega
  · have e : LinearMap.ker D.dd2.mulVecLin = LinearMap.ker D.strongDiv.mulVecLin ⊓ LinearMap.ker D.weakCurl.mulVecLin := by
      ext v
      simp only [Submodule.mem_inf, LinearMap.mem_ker, mulVecLin_apply]; exact k2 v
    have := finrank_harmonic D.strongCurl.mulVecLin D.strongDiv.mulVecLin D.weakCurl.mulVecLin
      (fun x => by simp only [mulVecLin_apply, mulVec_mulVec, dc, zero_mulVec])
      (fun x hx => by
        simp only [mulVecLin_apply] at hx ⊢
        apply m2.eq_zero
        have : x ⬝ᵥ D.M1 *ᵥ (D.weakCurl *ᵥ (D.strongCurl *ᵥ x)) = (D.strongCurl *ᵥ x) ⬝ᵥ D.M2 *ᵥ (D.strongCurl *ᵥ x) := by
          rw [w1, ← mulVec_mulVec, mulVec_mulVec _ D.M1, m1.mul_inv, one_mulVec, d1, transpose_mul, m2.1, ← mulVec_mulVec, mulVec_dot]
        rw [← this, hx, mulVec_zero, dotProduct_zero]) r1
    rw [e]
    rw [rank_eq] at this
    omega
  · have e : LinearMap.ker D.dd3.mulVecLin = LinearMap.ker D.weakGrad.mulVecLin := by
      ext v
      simp only [LinearMap.mem_ker, mulVecLin_apply]; exact k3 v
    have := nullity D.weakGrad
    rw [e]; omega

theorem unit_iff_ker {n : Nat} (A : Matrix (Fin n) (Fin n) ℝ) : IsUnit A.det ↔ finrank ℝ (LinearMap.ker A.mulVecLin) = 0 := by
  rw [← isUnit_iff_isUnit_det, Submodule.finrank_eq_zero, LinearMap.ker_eq_bot, ← Matrix.mulVec_injective_iff_isUnit]
  rfl

theorem range_eq_ker_of {n m l : Nat} {A : Matrix (Fin m) (Fin n) ℝ} {B : Matrix (Fin l) (Fin m) ℝ} (hBA : B * A = 0)
    (e : finrank ℝ (LinearMap.ker B.mulVecLin) = A.rank) (w : Fin m → ℝ) (hw : B *ᵥ w = 0) : ∃ x, A *ᵥ x = w := by
  have hle : LinearMap.range A.mulVecLin ≤ LinearMap.ker B.mulVecLin := by
    rintro _ ⟨x, rfl⟩
    simp only [LinearMap.mem_ker, mulVecLin_apply, mulVec_mulVec, hBA, zero_mulVec]
  have := Submodule.eq_of_le_of_finrank_eq hle (by rw [e]; rfl)
  have hm : w ∈ LinearMap.ker B.mulVecLin := hw
  rw [← this] at hm
  exact hm

/-- An operator that is symmetric and semidefinite in a mass inner product splits the space into kernel and range. -/
theorem ker_add_range {n : Nat} {M A : Matrix (Fin n) (Fin n) ℝ} (hM : SPD M) (hA : SPSD (M * A)) (v : Fin n → ℝ) :
    ∃ y z, A *ᵥ y = 0 ∧ v = y + A *ᵥ z := by
  have hdis : Disjoint (LinearMap.ker A.mulVecLin) (LinearMap.range A.mulVecLin) := by
    rw [Submodule.disjoint_def]
    rintro _ hk ⟨x, rfl⟩
    simp only [LinearMap.mem_ker, mulVecLin_apply] at hk ⊢
    apply hM.eq_zero
    rw [mulVec_mulVec, sym_dot hA.1, ← mulVec_mulVec, hk, mulVec_zero, dotProduct_zero]
  have htop : LinearMap.ker A.mulVecLin ⊔ LinearMap.range A.mulVecLin = ⊤ := by
    refine Submodule.eq_top_of_disjoint _ _ ?_ hdis
    have := LinearMap.finrank_range_add_finrank_ker A.mulVecLin
    omega
  have hv : v ∈ LinearMap.ker A.mulVecLin ⊔ LinearMap.range A.mulVecLin := by rw [htop]; trivial
  obtain ⟨y, hy, _, ⟨z, rfl⟩, e⟩ := Submodule.mem_sup.mp hv
  exact ⟨y, z, hy, e.symm⟩

/-- **C73** Hodge decomposition, for every admissible sequence: every 1-form is a gradient plus a weak curl plus a harmonic field and every 2-form
is a curl plus a weak gradient plus a harmonic field, and the three parts are orthogonal in the mass inner product. -/
theorem C73_hodge_decomposition (h : Admissible ns ps q types F polar dirichlet D) :
    (∀ v, ∃ φ B y, v = D.strongGrad *ᵥ φ + D.weakCurl *ᵥ B + y ∧ D.dd1 *ᵥ y = 0) ∧
    (∀ v, ∃ A ρ y, v = D.strongCurl *ᵥ A + D.weakGrad *ᵥ ρ + y ∧ D.dd2 *ᵥ y = 0) ∧
    (∀ φ B y, D.dd1 *ᵥ y = 0 → (D.strongGrad *ᵥ φ) ⬝ᵥ D.M1 *ᵥ (D.weakCurl *ᵥ B) = 0 ∧ (D.strongGrad *ᵥ φ) ⬝ᵥ D.M1 *ᵥ y = 0 ∧
      (D.weakCurl *ᵥ B) ⬝ᵥ D.M1 *ᵥ y = 0) ∧
    (∀ A ρ y, D.dd2 *ᵥ y = 0 → (D.strongCurl *ᵥ A) ⬝ᵥ D.M2 *ᵥ (D.weakGrad *ᵥ ρ) = 0 ∧ (D.strongCurl *ᵥ A) ⬝ᵥ D.M2 *ᵥ y = 0 ∧
      (D.weakGrad *ᵥ ρ) ⬝ᵥ D.M2 *ᵥ y = 0) := by
  obtain ⟨m0, m1, m2, m3⟩ := C31_mass_matrices_definite h
  obtain ⟨s0, s1, s2, s3⟩ := C34_laplacians_semidefinite h
  obtain ⟨_, l1, l2⟩ := C34_laplacians_are_hodge h
  obtain ⟨k0, k1, k2, k3⟩ := C34_kernels_are_harmonic h
  obtain ⟨cg, dc, _, _⟩ := C33_exactness h
  obtain ⟨d0, d1, d2, w0, w1, w2⟩ := D_eq h
  -- adjointness
  have adj0 : ∀ φ v, (D.strongGrad *ᵥ φ) ⬝ᵥ D.M1 *ᵥ v = -(φ ⬝ᵥ D.M0 *ᵥ (D.weakDiv *ᵥ v)) := by
    intro φ v
    rw [w0, neg_mulVec, mulVec_neg, dotProduct_neg, neg_neg, ← mulVec_mulVec, mulVec_mulVec _ D.M0, m0.mul_inv, one_mulVec, d0, transpose_mul,
      m1.1, ← mulVec_mulVec, mulVec_dot]
  have adj1 : ∀ A v, (D.strongCurl *ᵥ A) ⬝ᵥ D.M2 *ᵥ v = A ⬝ᵥ D.M1 *ᵥ (D.weakCurl *ᵥ v) := by
    intro φ v
    rw [w1, ← mulVec_mulVec, mulVec_mulVec _ D.M1, m1.mul_inv, one_mulVec, d1, transpose_mul,
      m2.1, ← mulVec_mulVec, mulVec_dot]
  have adj2 : ∀ B v, (D.strongDiv *ᵥ B) ⬝ᵥ D.M3 *ᵥ v = -(B ⬝ᵥ D.M2 *ᵥ (D.weakGrad *ᵥ v)) := by
    intro φ v
    rw [w2, neg_mulVec, mulVec_neg, dotProduct_neg, neg_neg, ← mulVec_mulVec, mulVec_mulVec _ D.M2, m2.mul_inv, one_mulVec, d2, transpose_mul,
      m3.1, ← mulVec_mulVec, mulVec_dot]
  refine ⟨fun v => ?_, fun v => ?_, fun φ B y hy => ?_, fun A ρ y hy => ?_⟩
  · obtain ⟨y, z, hy, e⟩ := ker_add_range m1 s1 v
    refine ⟨-(D.weakDiv *ᵥ z), D.strongCurl *ᵥ z, y, ?_, hy⟩
    rw [e, l1, sub_mulVec, mulVec_neg, mulVec_mulVec, mulVec_mulVec]; abel
  · obtain ⟨y, z, hy, e⟩ := ker_add_range m2 s2 v
    refine ⟨D.weakCurl *ᵥ z, -(D.strongDiv *ᵥ z), y, ?_, hy⟩
    rw [e, l2, add_mulVec, neg_mulVec, mulVec_neg, mulVec_mulVec, mulVec_mulVec]; abel
  · obtain ⟨c1, c2⟩ := (k1 y).mp hy
    refine ⟨?_, ?_, ?_⟩
    · rw [← adj1, mulVec_mulVec, cg, zero_mulVec, zero_dotProduct]
    · rw [adj0, c2, mulVec_zero, dotProduct_zero, neg_zero]
    · rw [sym_dot m1.1, ← adj1, c1, zero_dotProduct]
  · obtain ⟨c1, c2⟩ := (k2 y).mp hy
    refine ⟨?_, ?_, ?_⟩
    · have := adj2 (D.strongCurl *ᵥ A) ρ
      rw [mulVec_mulVec, dc, zero_mulVec, zero_dotProduct] at this
      linarith
    · rw [adj1, c2, mulVec_zero, dotProduct_zero]
    · have := adj2 y ρ
      rw [c1, zero_dotProduct] at this
      rw [sym_dot m2.1]; linarith

/-- Case: the standard case. -/
example (polar dirichlet : Bool) := C73_hodge_decomposition (Case.adm polar dirichlet)

/-- If the two Laplacians can be inverted the vector potential is in Coulomb gauge and the rest of a divergence-free field is harmonic. -/
theorem magnetic_decomposition_of (h : Admissible ns ps q types F polar dirichlet D) (v0 : IsUnit D.dd0.det) (v1 : IsUnit D.dd1.det)
    (B : Fin D.m2 → ℝ) :
    D.weakDiv *ᵥ D.vectorPotential B = 0 ∧ D.weakCurl *ᵥ D.harmonicComponent B = 0 ∧
    B = D.strongCurl *ᵥ D.vectorPotential B + D.harmonicComponent B ∧
    (D.strongDiv *ᵥ B = 0 → D.dd2 *ᵥ D.harmonicComponent B = 0) := by
  obtain ⟨l0, l1, l2⟩ := C34_laplacians_are_hodge h
  obtain ⟨cg, dc, wdc, _⟩ := C33_exactness h
  have e1 : D.dd1 *ᵥ D.vectorPotential B = D.weakCurl *ᵥ B := by
    unfold DeRham.vectorPotential
    rw [mulVec_mulVec, mul_nonsing_inv _ v1, one_mulVec]
  have g : D.weakDiv *ᵥ D.vectorPotential B = 0 := by
    have : D.dd0 *ᵥ (D.weakDiv *ᵥ D.vectorPotential B) = 0 := by
      have e : D.dd0 * D.weakDiv = D.weakDiv * D.dd1 := by
        rw [l0, l1, Matrix.mul_sub, ← Matrix.mul_assoc D.weakDiv D.weakCurl, wdc, Matrix.zero_mul, zero_sub, Matrix.neg_mul, Matrix.mul_assoc]
      rw [mulVec_mulVec, e, ← mulVec_mulVec, e1, mulVec_mulVec, wdc, zero_mulVec]
    have := congrArg (fun v => D.dd0⁻¹ *ᵥ v) this
    simpa only [mulVec_mulVec, ← Matrix.mul_assoc, nonsing_inv_mul _ v0, Matrix.one_mul, mulVec_zero] using this
  have w : D.weakCurl *ᵥ D.harmonicComponent B = 0 := by
    unfold DeRham.harmonicComponent
    have : D.weakCurl *ᵥ (D.strongCurl *ᵥ D.vectorPotential B) = D.dd1 *ᵥ D.vectorPotential B := by
      rw [l1, sub_mulVec, ← mulVec_mulVec _ D.strongGrad, g, mulVec_zero, sub_zero, mulVec_mulVec]
    rw [mulVec_sub, this, e1, sub_self]
  refine ⟨g, w, by unfold DeRham.harmonicComponent; abel, fun hB => ?_⟩
  refine ((C34_kernels_are_harmonic h).2.2.1 _).mpr ⟨?_, w⟩
  unfold DeRham.harmonicComponent
  rw [mulVec_sub, hB, mulVec_mulVec, dc, zero_mulVec, sub_zero]

end
end Mrx.Props
