import Verif.Proofs.Case
import Verif.Props.Start

/-!
# C79: spectra of the Hodge Laplacians and of the double curl
-/

set_option linter.unusedSectionVars false
set_option linter.unusedVariables false

namespace Mrx.Props
open Finset Spec Matrix DeRham

/-- Exactly the first `b` eigenvalues vanish and the others are positive; the first `b` eigenvectors are in the kernel of `A`, and every element
of the kernel is a combination of them. -/
def HarmonicFirst {n : Nat} (A : Matrix (Fin n) (Fin n) ℝ) (w : Fin n → ℝ) (V : Matrix (Fin n) (Fin n) ℝ) (b : Nat) : Prop :=
  (∀ k, 0 ≤ w k) ∧ (∀ k, w k = 0 ↔ k.1 < b) ∧ (∀ k, k.1 < b → A *ᵥ V.col k = 0) ∧
  ∀ x, A *ᵥ x = 0 → ∃ c : Fin n → ℝ, x = ∑ k ∈ univ.filter (fun k : Fin n => k.1 < b), c k • V.col k

theorem harmonicFirst {n : Nat} {M N A : Matrix (Fin n) (Fin n) ℝ} {w : Fin n → ℝ} {V : Matrix (Fin n) (Fin n) ℝ} (hM : SPD M) (hN : SPD N)
    (hA : SPSD (M * A)) (hV : IsGEigh (M * A) N w V) {b : Nat} (hb : Module.finrank ℝ (LinearMap.ker A.mulVecLin) = b) :
    HarmonicFirst A w V b := by
  have hz : ∀ k, w k = 0 ↔ k.1 < b := fun k => by rw [hV.zero_iff hA k, ker_mul_dd hM, hb]
  have hmul : ∀ x, A *ᵥ x = 0 ↔ (M * A) *ᵥ x = 0 := fun x => by
    have := SetLike.ext_iff.mp (ker_mul_dd (A := A) hM) x
    simpa only [LinearMap.mem_ker, mulVecLin_apply] using this.symm
  refine ⟨hV.nonneg hA, hz, fun k hk => ?_, fun x hx => ?_⟩
  · rw [hmul, hV.col, (hz k).mpr hk, zero_smul]
  · refine ⟨fun k => V.col k ⬝ᵥ N *ᵥ x, ?_⟩
    have hc := (hV.mem_ker_iff hA.1 hN.1 x).mp ((hmul x).mp hx)
    conv_lhs => rw [hV.expand x]
    rw [Finset.sum_filter]
    refine Finset.sum_congr rfl fun k _ => ?_
    by_cases hk : k.1 < b
    · rw [if_pos hk]
    · rw [if_neg hk, hc k (fun e => hk ((hz k).mp e)), zero_smul]

section
variable {ns ps : Nat × Nat × Nat} {q : Nat} {types : String × String × String} {F : V3 → V3} {polar dirichlet : Bool} {D : DeRham}

/-- **C79** `scipy.linalg.eigh(M_k @ dd_k, M_k)`, for every resolution: no negative eigenvalues; the number of zero eigenvalues is the number of harmonic
fields of `C73_harmonic_dimensions` (the Betti number of the domain for the sizes of `C73_topology_iff`) and they come first; the corresponding
eigenvectors span the harmonic fields. -/
theorem C79_generalised_spectrum (h : Admissible ns ps q types F polar dirichlet D) (ty : Toroidal types) :
    (∀ w V, IsGEigh (D.M0 * D.dd0) D.M0 w V → HarmonicFirst D.dd0 w V (codeBetti polar dirichlet ns.1 ns.2.1).1) ∧
    (∀ w V, IsGEigh (D.M1 * D.dd1) D.M1 w V → HarmonicFirst D.dd1 w V (codeBetti polar dirichlet ns.1 ns.2.1).2.1) ∧
    (∀ w V, IsGEigh (D.M2 * D.dd2) D.M2 w V → HarmonicFirst D.dd2 w V (codeBetti polar dirichlet ns.1 ns.2.1).2.2.1) ∧
    (∀ w V, IsGEigh (D.M3 * D.dd3) D.M3 w V → HarmonicFirst D.dd3 w V (codeBetti polar dirichlet ns.1 ns.2.1).2.2.2) := by
  obtain ⟨m0, m1, m2, m3⟩ := C31_mass_matrices_definite h
  obtain ⟨s0, s1, s2, s3⟩ := C34_laplacians_semidefinite h
  obtain ⟨b0, b1, b2, b3⟩ := C73_harmonic_dimensions h ty
  exact ⟨fun w V hV => harmonicFirst m0 m0 s0 hV b0, fun w V hV => harmonicFirst m1 m1 s1 hV b1, fun w V hV => harmonicFirst m2 m2 s2 hV b2,
    fun w V hV => harmonicFirst m3 m3 s3 hV b3⟩

/-- Case: the standard case. -/
example (polar dirichlet : Bool) := C79_generalised_spectrum (Case.adm polar dirichlet) ⟨rfl, by decide, by decide⟩

theorem spd_one_mat (n : Nat) : SPD (1 : Matrix (Fin n) (Fin n) ℝ) :=
  ⟨transpose_one, fun x hx => by
    rw [one_mulVec]
    exact lt_of_le_of_ne (dot_self_nonneg x) fun e => hx (dotProduct_self_eq_zero.mp e.symm)⟩

/-- **C79** the same for `jnp.linalg.eigh(M_k @ dd_k)`, with eigenvectors that are orthonormal as coefficient vectors. -/
theorem C79_plain_spectrum (h : Admissible ns ps q types F polar dirichlet D) (ty : Toroidal types) :
    (∀ w V, IsEigh (symmetrize (D.M0 * D.dd0)) w V → HarmonicFirst D.dd0 w V (codeBetti polar dirichlet ns.1 ns.2.1).1) ∧
    (∀ w V, IsEigh (symmetrize (D.M1 * D.dd1)) w V → HarmonicFirst D.dd1 w V (codeBetti polar dirichlet ns.1 ns.2.1).2.1) ∧
    (∀ w V, IsEigh (symmetrize (D.M2 * D.dd2)) w V → HarmonicFirst D.dd2 w V (codeBetti polar dirichlet ns.1 ns.2.1).2.2.1) ∧
    (∀ w V, IsEigh (symmetrize (D.M3 * D.dd3)) w V → HarmonicFirst D.dd3 w V (codeBetti polar dirichlet ns.1 ns.2.1).2.2.2) := by
  obtain ⟨m0, m1, m2, m3⟩ := C31_mass_matrices_definite h
  obtain ⟨s0, s1, s2, s3⟩ := C34_laplacians_semidefinite h
  obtain ⟨b0, b1, b2, b3⟩ := C73_harmonic_dimensions h ty
  rw [symmetrize_eq s0.1, symmetrize_eq s1.1, symmetrize_eq s2.1, symmetrize_eq s3.1]
  exact ⟨fun w V hV => harmonicFirst m0 (spd_one_mat _) s0 hV.toG b0, fun w V hV => harmonicFirst m1 (spd_one_mat _) s1 hV.toG b1,
    fun w V hV => harmonicFirst m2 (spd_one_mat _) s2 hV.toG b2, fun w V hV => harmonicFirst m3 (spd_one_mat _) s3 hV.toG b3⟩

/-- Case: the standard case. -/
example (polar dirichlet : Bool) := C79_plain_spectrum (Case.adm polar dirichlet) ⟨rfl, by decide, by decide⟩

/-- **C79** the zero eigenvalues of the four problems are as many as topology demands exactly for the sizes of `RightSizes`. -/
theorem C79_zero_modes_topological_iff (h : Admissible ns ps q types F polar dirichlet D) (ty : Toroidal types) {w0 V0 w1 V1 w2 V2 w3 V3}
    (e0 : IsGEigh (D.M0 * D.dd0) D.M0 w0 V0) (e1 : IsGEigh (D.M1 * D.dd1) D.M1 w1 V1) (e2 : IsGEigh (D.M2 * D.dd2) D.M2 w2 V2)
    (e3 : IsGEigh (D.M3 * D.dd3) D.M3 w3 V3) :
    ((univ.filter fun k => w0 k = 0).card = betti polar dirichlet 0 ∧ (univ.filter fun k => w1 k = 0).card = betti polar dirichlet 1 ∧
      (univ.filter fun k => w2 k = 0).card = betti polar dirichlet 2 ∧ (univ.filter fun k => w3 k = 0).card = betti polar dirichlet 3) ↔
    RightSizes polar dirichlet ns.1 ns.2.1 := by
  rw [← C73_topology_iff h ty]
  obtain ⟨g0, g1, g2, g3⟩ := C79_generalised_spectrum h ty
  obtain ⟨b0, b1, b2, b3⟩ := C73_harmonic_dimensions h ty
  have key : ∀ {n : Nat} {A : Matrix (Fin n) (Fin n) ℝ} {w : Fin n → ℝ} {V : Matrix (Fin n) (Fin n) ℝ} {b : Nat}, HarmonicFirst A w V b →
      Module.finrank ℝ (LinearMap.ker A.mulVecLin) = b → (univ.filter fun k => w k = 0).card = Module.finrank ℝ (LinearMap.ker A.mulVecLin) := by
    intro n A w V b hf hb
    have hle : b ≤ n := by
      have := nullity A
      omega
    have e : (univ.filter fun k => w k = 0) = univ.filter fun k : Fin n => k.1 < b := filter_congr fun k _ => hf.2.1 k
    rw [hb, e, Fin.card_filter_val_lt, min_eq_right hle]
  rw [key (g0 w0 V0 e0) b0, key (g1 w1 V1 e1) b1, key (g2 w2 V2 e2) b2, key (g3 w3 V3 e3) b3]

/-- Case: the standard case. -/
example (polar dirichlet : Bool) := C79_zero_modes_topological_iff (Case.adm polar dirichlet) ⟨rfl, by decide, by decide⟩
  (exists_geigh (C34_laplacians_semidefinite (Case.adm polar dirichlet)).1.1 (C31_mass_matrices_definite (Case.adm polar dirichlet)).1).choose_spec.choose_spec
  (exists_geigh (C34_laplacians_semidefinite (Case.adm polar dirichlet)).2.1.1 (C31_mass_matrices_definite (Case.adm polar dirichlet)).2.1).choose_spec.choose_spec
  (exists_geigh (C34_laplacians_semidefinite (Case.adm polar dirichlet)).2.2.1.1 (C31_mass_matrices_definite (Case.adm polar dirichlet)).2.2.1).choose_spec.choose_spec
  (exists_geigh (C34_laplacians_semidefinite (Case.adm polar dirichlet)).2.2.2.1 (C31_mass_matrices_definite (Case.adm polar dirichlet)).2.2.2).choose_spec.choose_spec

/-- **C79** toroidal shell with Dirichlet conditions, for every resolution: exactly two zero eigenvalues of `eigh(M2 @ dd2, M2)`; the first two
eigenvectors are L2-orthonormal, divergence-free and weakly curl-free, and every such field is a combination of them. -/
theorem C79_hollow_toroid (h : Admissible ns ps q types F false true D) (ty : Toroidal types) {w : Fin D.m2 → ℝ} {V : Matrix (Fin D.m2) (Fin D.m2) ℝ}
    (hV : IsGEigh (D.M2 * D.dd2) D.M2 w V) : ∃ k0 k1 : Fin D.m2, k0.1 = 0 ∧ k1.1 = 1 ∧
      (∀ k, w k = 0 ↔ k = k0 ∨ k = k1) ∧ (∀ k, 0 ≤ w k) ∧
      (∀ k, k = k0 ∨ k = k1 → D.strongDiv *ᵥ V.col k = 0 ∧ D.weakCurl *ᵥ V.col k = 0 ∧ D.norm2 (V.col k) = 1) ∧
      l2Product (D.phys2 (V.col k0)) (D.phys2 (V.col k1)) D.S.Q F = 0 ∧
      ∀ B, D.strongDiv *ᵥ B = 0 → D.weakCurl *ᵥ B = 0 → ∃ a b : ℝ, B = a • V.col k0 + b • V.col k1 := by
  have b2 := (C73_harmonic_dimensions h ty).2.2.1
  obtain ⟨f1, f2, f3, f4⟩ := (C79_generalised_spectrum h ty).2.2.1 w V hV
  have hb : (codeBetti false true ns.1 ns.2.1).2.2.1 = 2 := rfl
  rw [hb] at b2 f2 f3 f4
  have hdim : 2 ≤ D.m2 := by
    have := nullity D.dd2
    omega
  have hk2 := (C34_kernels_are_harmonic h).2.2.1
  refine ⟨⟨0, by omega⟩, ⟨1, by omega⟩, rfl, rfl, fun k => ?_, f1, fun k hk => ?_, ?_, fun B h1 h2 => ?_⟩
  · rw [f2 k, Fin.ext_iff, Fin.ext_iff]
    show k.1 < 2 ↔ k.1 = 0 ∨ k.1 = 1
    omega
  · have hk' : k.1 < 2 := by rcases hk with rfl | rfl <;> simp
    obtain ⟨c1, c2⟩ := (hk2 _).mp (f3 k hk')
    refine ⟨c1, c2, ?_⟩
    unfold norm2
    rw [hV.col_dot, if_pos rfl, Real.sqrt_one]
  · rw [← h.M2_l2, hV.col_dot, if_neg]
    intro e
    simp at e
  · obtain ⟨c, e⟩ := f4 B ((hk2 B).mpr ⟨h1, h2⟩)
    refine ⟨c ⟨0, by omega⟩, c ⟨1, by omega⟩, ?_⟩
    have hs : (univ.filter fun k : Fin D.m2 => k.1 < 2) = {⟨0, by omega⟩, ⟨1, by omega⟩} := by
      ext k
      simp only [mem_filter, mem_univ, true_and, mem_insert, mem_singleton, Fin.ext_iff]
      omega
    rw [e, hs, Finset.sum_pair (by intro e; simp at e)]

/-- Case: the standard case. -/
example := C79_hollow_toroid (Case.adm false true) ⟨rfl, by decide, by decide⟩
  (exists_geigh (C34_laplacians_semidefinite (Case.adm false true)).2.2.1.1 (C31_mass_matrices_definite (Case.adm false true)).2.2.1).choose_spec.choose_spec

/-! ## The double curl (`toroid_cavity.py`) -/

/-- **C79** for every admissible sequence the double curl matrix `M1 (dd1 + strong_grad weak_div)` is the matrix of `(curl v, curl v')`; it is symmetric positive
semidefinite and its kernel consists of the discretely curl-free fields. -/
theorem C79_double_curl (h : Admissible ns ps q types F polar dirichlet D) :
    (∀ v v', v ⬝ᵥ D.doubleCurl *ᵥ v' = l2Product (D.phys2 (D.strongCurl *ᵥ v)) (D.phys2 (D.strongCurl *ᵥ v')) D.S.Q F) ∧
    SPSD D.doubleCurl ∧ (∀ v, D.doubleCurl *ᵥ v = 0 ↔ D.strongCurl *ᵥ v = 0) := by
  obtain ⟨m0, m1, m2, m3⟩ := C31_mass_matrices_definite h
  obtain ⟨d0, d1, d2, w0, w1, w2⟩ := D_eq h
  have e : D.doubleCurl = D.strongCurlᵀ * D.M2 * D.strongCurl := by
    unfold doubleCurl
    rw [(C34_laplacians_are_hodge h).2.1, sub_add_cancel, w1, ← Matrix.mul_assoc, ← Matrix.mul_assoc, m1.mul_inv, Matrix.one_mul, d1, transpose_mul, m2.1]
  have q1 : ∀ v v', v ⬝ᵥ D.doubleCurl *ᵥ v' = l2Product (D.phys2 (D.strongCurl *ᵥ v)) (D.phys2 (D.strongCurl *ᵥ v')) D.S.Q F := by
    intro v v'
    rw [← h.M2_l2, e, ← mulVec_mulVec, ← mulVec_mulVec, ← mulVec_dot]
  have q2 : SPSD D.doubleCurl := by
    refine ⟨?_, fun v => ?_⟩
    · rw [e, transpose_mul, transpose_mul, transpose_transpose, m2.1, Matrix.mul_assoc]
    · rw [q1, ← h.M2_l2]; exact m2.psd.2 _
  refine ⟨q1, q2, fun v => ⟨fun h0 => ?_, fun h0 => ?_⟩⟩
  · have := q1 v v
    rw [h0, dotProduct_zero, ← h.M2_l2] at this
    exact m2.eq_zero this.symm
  · rw [e, ← mulVec_mulVec, h0, mulVec_zero]

/-- Real generalised eigenvalue problems with complex solutions. -/
theorem complex_eig {n : Nat} {A M : Matrix (Fin n) (Fin n) ℝ} (hA : SPSD A) (hM : SPD M) (lam : ℂ) (v : Fin n → ℂ) (hv : v ≠ 0)
    (e : A.map Complex.ofReal *ᵥ v = lam • M.map Complex.ofReal *ᵥ v) : lam.im = 0 ∧ 0 ≤ lam.re := by
  obtain ⟨a, ha⟩ : ∃ a : Fin n → ℝ, a = fun i => (v i).re := ⟨_, rfl⟩
  obtain ⟨b, hb⟩ : ∃ b : Fin n → ℝ, b = fun i => (v i).im := ⟨_, rfl⟩
  have hre : ∀ (B : Matrix (Fin n) (Fin n) ℝ) i, ((B.map Complex.ofReal *ᵥ v) i).re = (B *ᵥ a) i := fun B i => by
    simp [mulVec, dotProduct, ha]
  have him : ∀ (B : Matrix (Fin n) (Fin n) ℝ) i, ((B.map Complex.ofReal *ᵥ v) i).im = (B *ᵥ b) i := fun B i => by
    simp [mulVec, dotProduct, hb]
  have e1 : A *ᵥ a = lam.re • M *ᵥ a - lam.im • M *ᵥ b := by
    funext i
    have := congrArg Complex.re (congrFun e i)
    rw [hre] at this
    rw [this]
    simp only [Pi.smul_apply, smul_eq_mul, Complex.mul_re, hre, him, Pi.sub_apply]
  have e2 : A *ᵥ b = lam.re • M *ᵥ b + lam.im • M *ᵥ a := by
    funext i
    have := congrArg Complex.im (congrFun e i)
    rw [him] at this
    rw [this]
    simp only [Pi.smul_apply, smul_eq_mul, Complex.mul_im, hre, him, Pi.add_apply]
  have s1 : b ⬝ᵥ A *ᵥ a = lam.re * (b ⬝ᵥ M *ᵥ a) - lam.im * (b ⬝ᵥ M *ᵥ b) := by
    rw [e1, dotProduct_sub, dotProduct_smul, dotProduct_smul, smul_eq_mul, smul_eq_mul]
  have s2 : a ⬝ᵥ A *ᵥ b = lam.re * (a ⬝ᵥ M *ᵥ b) + lam.im * (a ⬝ᵥ M *ᵥ a) := by
    rw [e2, dotProduct_add, dotProduct_smul, dotProduct_smul, smul_eq_mul, smul_eq_mul]
  rw [sym_dot hA.1, s2, sym_dot hM.1 b a] at s1
  have s3 : a ⬝ᵥ A *ᵥ a = lam.re * (a ⬝ᵥ M *ᵥ a) - lam.im * (a ⬝ᵥ M *ᵥ b) := by
    rw [e1, dotProduct_sub, dotProduct_smul, dotProduct_smul, smul_eq_mul, smul_eq_mul]
  have s4 : b ⬝ᵥ A *ᵥ b = lam.re * (b ⬝ᵥ M *ᵥ b) + lam.im * (b ⬝ᵥ M *ᵥ a) := by
    rw [e2, dotProduct_add, dotProduct_smul, dotProduct_smul, smul_eq_mul, smul_eq_mul]
  have hpos : 0 < a ⬝ᵥ M *ᵥ a + b ⬝ᵥ M *ᵥ b := by
    by_contra hle
    have p1 := hM.psd.2 a
    have p2 := hM.psd.2 b
    have z1 : a = 0 := hM.eq_zero (by linarith)
    have z2 : b = 0 := hM.eq_zero (by linarith)
    apply hv
    funext i
    have r1 := congrFun z1 i
    have r2 := congrFun z2 i
    rw [ha] at r1
    rw [hb] at r2
    exact Complex.ext r1 r2
  have him0 : lam.im = 0 := by
    have : lam.im * (a ⬝ᵥ M *ᵥ a + b ⬝ᵥ M *ᵥ b) = 0 := by linarith
    exact (mul_eq_zero.mp this).resolve_right hpos.ne'
  refine ⟨him0, ?_⟩
  have : 0 ≤ lam.re * (a ⬝ᵥ M *ᵥ a + b ⬝ᵥ M *ᵥ b) := by
    have p1 := hA.2 a
    have p2 := hA.2 b
    rw [s3, him0] at p1
    rw [s4, him0] at p2
    linarith
  by_contra hneg
  have := mul_neg_of_neg_of_pos (not_le.mp hneg) hpos
  linarith

/-- **C79** `scipy.linalg.eig(C, M1)` in `toroid_cavity.py` returns complex numbers of which only the real part is kept and a filter keeps the finite ones: nothing
is lost, since the mass matrix is invertible and every complex eigenvalue is real and non-negative. -/
theorem C79_eigenvalues_real (h : Admissible ns ps q types F polar dirichlet D) (lam : ℂ) (v : Fin D.m1 → ℂ) (hv : v ≠ 0)
    (e : D.doubleCurl.map Complex.ofReal *ᵥ v = lam • D.M1.map Complex.ofReal *ᵥ v) : IsUnit D.M1.det ∧ lam.im = 0 ∧ 0 ≤ lam.re :=
  ⟨(C31_mass_matrices_definite h).2.1.det, complex_eig (C79_double_curl h).2.1 (C31_mass_matrices_definite h).2.1 lam v hv e⟩

/-- **C79** Maxwell eigenmodes: an eigenfield of the double curl with non-zero eigenvalue is weakly divergence-free, and its curl is a
divergence-free eigenfield of the Laplacian on 2-forms with the same eigenvalue. -/
theorem C79_modes (h : Admissible ns ps q types F polar dirichlet D) (lam : ℝ) (hl : lam ≠ 0) (v : Fin D.m1 → ℝ)
    (e : D.doubleCurl *ᵥ v = lam • D.M1 *ᵥ v) :
    D.weakDiv *ᵥ v = 0 ∧ D.dd1 *ᵥ v = lam • v ∧ D.strongDiv *ᵥ (D.strongCurl *ᵥ v) = 0 ∧
    D.dd2 *ᵥ (D.strongCurl *ᵥ v) = lam • (D.strongCurl *ᵥ v) ∧ (v ≠ 0 → D.strongCurl *ᵥ v ≠ 0) := by
  obtain ⟨m0, m1, m2, m3⟩ := C31_mass_matrices_definite h
  obtain ⟨l0, l1, l2⟩ := C34_laplacians_are_hodge h
  obtain ⟨cg, dc, wdc, _⟩ := C33_exactness h
  have e1 : D.weakCurl *ᵥ (D.strongCurl *ᵥ v) = lam • v := by
    have : D.doubleCurl *ᵥ v = D.M1 *ᵥ (D.weakCurl *ᵥ (D.strongCurl *ᵥ v)) := by
      unfold doubleCurl
      rw [l1, sub_add_cancel, ← mulVec_mulVec, ← mulVec_mulVec]
    rw [this] at e
    have := congrArg (fun z => D.M1⁻¹ *ᵥ z) e
    have z : ∀ z : Fin D.m1 → ℝ, D.M1⁻¹ *ᵥ (D.M1 *ᵥ z) = z := fun z => by rw [mulVec_mulVec, m1.inv_mul, one_mulVec]
    beta_reduce at this
    rw [z, mulVec_smul, z] at this
    exact this
  have g : D.weakDiv *ᵥ v = 0 := by
    have := congrArg (fun z => D.weakDiv *ᵥ z) e1
    simp only [mulVec_smul] at this
    rw [mulVec_mulVec, wdc, zero_mulVec] at this
    exact (smul_eq_zero.mp this.symm).resolve_left hl
  have c : D.strongDiv *ᵥ (D.strongCurl *ᵥ v) = 0 := by rw [mulVec_mulVec, dc, zero_mulVec]
  refine ⟨g, ?_, c, ?_, fun hv h0 => ?_⟩
  · rw [l1, sub_mulVec, ← mulVec_mulVec, ← mulVec_mulVec, e1, g, mulVec_zero, sub_zero]
  · rw [l2, add_mulVec, neg_mulVec, ← mulVec_mulVec, c, mulVec_zero, neg_zero, zero_add, ← mulVec_mulVec, e1, mulVec_smul]
  · rw [h0, mulVec_zero] at e1
    exact hv ((smul_eq_zero.mp e1.symm).resolve_left hl)

/-- **C79** and conversely: every divergence-free eigenfield of the Laplacian on 2-forms with non-zero eigenvalue comes from such a mode. -/
theorem C79_modes_converse (h : Admissible ns ps q types F polar dirichlet D) (lam : ℝ) (hl : lam ≠ 0) (B : Fin D.m2 → ℝ)
    (hB : D.strongDiv *ᵥ B = 0) (e : D.dd2 *ᵥ B = lam • B) :
    D.doubleCurl *ᵥ (D.weakCurl *ᵥ B) = lam • D.M1 *ᵥ (D.weakCurl *ᵥ B) ∧ D.strongCurl *ᵥ (D.weakCurl *ᵥ B) = lam • B := by
  obtain ⟨l0, l1, l2⟩ := C34_laplacians_are_hodge h
  have e1 : D.strongCurl *ᵥ (D.weakCurl *ᵥ B) = lam • B := by
    rw [l2, add_mulVec, neg_mulVec, ← mulVec_mulVec, hB, mulVec_zero, neg_zero, zero_add, ← mulVec_mulVec] at e
    exact e
  refine ⟨?_, e1⟩
  unfold doubleCurl
  rw [l1, sub_add_cancel, ← mulVec_mulVec, ← mulVec_mulVec, e1, mulVec_smul, mulVec_smul]

/-- **C79** the number of zero eigenvalues of the double curl is the number of scalar basis functions minus the harmonic ones plus the number of harmonic
1-forms, for every resolution. For the sizes of `C73_topology_iff` these are topological: no spurious modes. -/
theorem C79_double_curl_kernel (h : Admissible ns ps q types F polar dirichlet D) (ty : Toroidal types)
    {w : Fin D.m1 → ℝ} {V : Matrix (Fin D.m1) (Fin D.m1) ℝ} (hV : IsGEigh D.doubleCurl D.M1 w V) :
    (∀ k, 0 ≤ w k) ∧ ∀ k, w k = 0 ↔ k.1 < D.m0 - (codeBetti polar dirichlet ns.1 ns.2.1).1 + (codeBetti polar dirichlet ns.1 ns.2.1).2.1 := by
  obtain ⟨q1, q2, q3⟩ := C79_double_curl h
  have hk : LinearMap.ker D.doubleCurl.mulVecLin = LinearMap.ker D.strongCurl.mulVecLin := by
    ext v
    simp only [LinearMap.mem_ker, mulVecLin_apply]; exact q3 v
  refine ⟨hV.nonneg q2, fun k => ?_⟩
  rw [hV.zero_iff q2 k, hk]
  obtain ⟨b0, b1, _, _⟩ := C73_harmonic_dimensions h ty
  obtain ⟨k0, k1, _, _⟩ := C34_kernels_are_harmonic h
  have e0 : LinearMap.ker D.dd0.mulVecLin = LinearMap.ker D.strongGrad.mulVecLin := by
    ext v
    simp only [LinearMap.mem_ker, mulVecLin_apply]; exact k0 v
  rw [e0] at b0
  have := closed_dims_all h ty
  have n0 := nullity D.strongGrad
  have n1 := nullity D.strongCurl
  have e : Module.finrank ℝ (LinearMap.ker D.strongCurl.mulVecLin) = D.m0 - (codeBetti polar dirichlet ns.1 ns.2.1).1 + (codeBetti polar dirichlet ns.1 ns.2.1).2.1 := by
    omega
  rw [e]

/-- Case: the standard case. -/
example (polar dirichlet : Bool) := C79_double_curl_kernel (Case.adm polar dirichlet) ⟨rfl, by decide, by decide⟩
  (exists_geigh (C79_double_curl (Case.adm polar dirichlet)).2.1.1 (C31_mass_matrices_definite (Case.adm polar dirichlet)).2.1).choose_spec.choose_spec

/-- Case of `C79_modes`: every column of the eigenvectors above whose eigenvalue is not zero. -/
example (polar dirichlet : Bool) : ∃ (w : Fin (Case.D polar dirichlet).m1 → ℝ) (V : Matrix _ _ ℝ), IsGEigh (Case.D polar dirichlet).doubleCurl (Case.D polar dirichlet).M1 w V ∧
    ∀ k, w k ≠ 0 → (Case.D polar dirichlet).weakDiv *ᵥ V.col k = 0 := by
  obtain ⟨w, V, hV⟩ := exists_geigh (C79_double_curl (Case.adm polar dirichlet)).2.1.1 (C31_mass_matrices_definite (Case.adm polar dirichlet)).2.1
  exact ⟨w, V, hV, fun k hk => (C79_modes (Case.adm polar dirichlet) (w k) hk (V.col k) (hV.col k)).1⟩

/-- **C79** derivatives carry eigenfields to eigenfields: gradients of scalar ones, curls and divergences. -/
theorem C79_spectral_chain (h : Admissible ns ps q types F polar dirichlet D) (lam : ℝ) :
    (∀ φ, D.dd0 *ᵥ φ = lam • φ → D.dd1 *ᵥ (D.strongGrad *ᵥ φ) = lam • (D.strongGrad *ᵥ φ) ∧
      (D.strongGrad *ᵥ φ) ⬝ᵥ D.M1 *ᵥ (D.strongGrad *ᵥ φ) = lam * (φ ⬝ᵥ D.M0 *ᵥ φ)) ∧
    (∀ A, D.dd1 *ᵥ A = lam • A → D.dd2 *ᵥ (D.strongCurl *ᵥ A) = lam • (D.strongCurl *ᵥ A)) ∧
    (∀ B, D.dd2 *ᵥ B = lam • B → D.dd3 *ᵥ (D.strongDiv *ᵥ B) = lam • (D.strongDiv *ᵥ B)) := by
  obtain ⟨c0, c1, c2⟩ := C34_laplacians_commute h
  refine ⟨fun φ e => ⟨?_, ?_⟩, fun A e => ?_, fun B e => ?_⟩
  · rw [mulVec_mulVec, c0, ← mulVec_mulVec, e, mulVec_smul]
  · rw [← (C34_energy_identities h).1, ← mulVec_mulVec, e, mulVec_smul, dotProduct_smul, smul_eq_mul]
  · rw [mulVec_mulVec, c1, ← mulVec_mulVec, e, mulVec_smul]
  · rw [mulVec_mulVec, c2, ← mulVec_mulVec, e, mulVec_smul]

/-- non-vacuity: the eigenvalue problems have solutions. -/
example : ∃ (D : DeRham) (w : Fin D.m2 → ℝ) (V : Matrix (Fin D.m2) (Fin D.m2) ℝ) (w' : Fin D.m1 → ℝ) (V' : Matrix (Fin D.m1) (Fin D.m1) ℝ),
    Admissible (5, 6, 4) (3, 2, 1) 4 ("clamped", "periodic", "periodic") (fun y => y) false true D ∧
    Compatible (5, 6, 4) ("clamped", "periodic", "periodic") true ∧ IsGEigh (D.M2 * D.dd2) D.M2 w V ∧ IsGEigh D.doubleCurl D.M1 w' V' := by
  obtain ⟨D, h⟩ := Admissible.example false true
  obtain ⟨m0, m1, m2, m3⟩ := C31_mass_matrices_definite h
  obtain ⟨w, V, hV⟩ := exists_geigh (C34_laplacians_semidefinite h).2.2.1.1 m2
  obtain ⟨w', V', hV'⟩ := exists_geigh (C79_double_curl h).2.1.1 m1
  exact ⟨D, w, V, w', V', h, by constructor <;> simp, hV, hV'⟩

end
end Mrx.Props
