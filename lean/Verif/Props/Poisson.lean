import Verif.Proofs.Case
import Verif.Props.Start

/-!
# C78: the Poisson problems of the tutorials
-/

set_option linter.unusedSectionVars false
set_option linter.unusedVariables false

namespace Mrx.Props
open Finset Spec Matrix DeRham

section
variable {ns ps : Nat × Nat × Nat} {q : Nat} {types : String × String × String} {F : V3 → V3} {polar dirichlet : Bool} {D : DeRham}

theorem unit_mul {n : Nat} {M A : Matrix (Fin n) (Fin n) ℝ} (hM : SPD M) (hA : IsUnit A.det) : IsUnit (M * A).det := by
  rw [det_mul]; exact hM.det.mul hA

/-- The Dirichlet energy of a discrete function for the source `f`. -/
noncomputable def dirichletEnergy (D : DeRham) (F : V3 → V3) (f : V3 → Fin 1 → ℝ) (v : Fin D.m0 → ℝ) : ℝ :=
  1 / 2 * l2Product (D.phys1 (D.strongGrad *ᵥ v)) (D.phys1 (D.strongGrad *ᵥ v)) D.S.Q F - l2Product (D.phys0 v) f D.S.Q F

/-- **C78** (wherever the system is well posed, `C78_poisson_wellposed_iff`) with Dirichlet conditions `solve(M0 @ dd0, P0(f))` is the one discrete function `u` with
`(grad u, grad v) = (f, v)` for all discrete `v` (products of the physical fields, by the quadrature of the sequence). -/
theorem C78_poisson_weak_form (h : Admissible ns ps q types F polar dirichlet D) (ty : Toroidal types)
    (hd : dirichlet = true) (hs : polar = true → ns.1 ≤ ns.2.1) (f : V3 → Fin 1 → ℝ) (u : Fin D.m0 → ℝ) :
    u = D.poisson0 f ↔ ∀ v, l2Product (D.phys1 (D.strongGrad *ᵥ v)) (D.phys1 (D.strongGrad *ᵥ u)) D.S.Q F = l2Product (D.phys0 v) f D.S.Q F := by
  have m0 := (C31_mass_matrices_definite h).1
  have hu := unit_mul m0 ((C73_laplacians_invertible_iff h ty).1.mpr ⟨hd, hs⟩)
  have e : u = D.poisson0 f ↔ (D.M0 * D.dd0) *ᵥ u = D.projector0 f := by
    unfold poisson0
    constructor
    · rintro rfl; rw [mulVec_mulVec, mul_nonsing_inv _ hu, one_mulVec]
    · intro e; rw [← e, mulVec_mulVec, nonsing_inv_mul _ hu, one_mulVec]
  rw [e]
  constructor
  · intro e v
    rw [← dd0_l2 h, mulVec_mulVec, e, h.proj0_l2]
  · intro e
    refine dot_ext fun v => ?_
    rw [h.proj0_l2, ← e v, ← dd0_l2 h, mulVec_mulVec]

/-- Case: the standard case. -/
example (polar : Bool) := C78_poisson_weak_form (Case.adm polar true) ⟨rfl, by decide, by decide⟩ rfl (fun _ => by norm_num)

/-- **C78** energy principle: the Dirichlet energy of any other discrete function exceeds that of the computed solution by half the
squared norm of the gradient of the difference, and strictly so. -/
theorem C78_poisson_minimises (h : Admissible ns ps q types F polar dirichlet D) (ty : Toroidal types)
    (hd : dirichlet = true) (hs : polar = true → ns.1 ≤ ns.2.1) (f : V3 → Fin 1 → ℝ) (v : Fin D.m0 → ℝ) :
    dirichletEnergy D F f v = dirichletEnergy D F f (D.poisson0 f) + 1 / 2 * l2Product (D.phys1 (D.strongGrad *ᵥ (v - D.poisson0 f)))
      (D.phys1 (D.strongGrad *ᵥ (v - D.poisson0 f))) D.S.Q F ∧
    (v ≠ D.poisson0 f → dirichletEnergy D F f (D.poisson0 f) < dirichletEnergy D F f v) := by
  have hw := (C78_poisson_weak_form h ty hd hs f _).mp rfl
  obtain ⟨u, hu⟩ : ∃ u, u = D.poisson0 f := ⟨_, rfl⟩
  rw [← hu] at hw ⊢
  obtain ⟨m0, m1, m2, m3⟩ := C31_mass_matrices_definite h
  have e : dirichletEnergy D F f v = dirichletEnergy D F f u + 1 / 2 * l2Product (D.phys1 (D.strongGrad *ᵥ (v - u)))
      (D.phys1 (D.strongGrad *ᵥ (v - u))) D.S.Q F := by
    unfold dirichletEnergy
    rw [← hw v, ← hw u, ← h.M1_l2, ← h.M1_l2, ← h.M1_l2, ← h.M1_l2, mulVec_sub D.strongGrad, mulVec_sub, dotProduct_sub, sub_dotProduct, sub_dotProduct,
      sym_dot m1.1 (D.strongGrad *ᵥ u) (D.strongGrad *ᵥ v)]
    ring
  refine ⟨e, fun hne => ?_⟩
  rw [e]
  have hpos : 0 < l2Product (D.phys1 (D.strongGrad *ᵥ (v - u))) (D.phys1 (D.strongGrad *ᵥ (v - u))) D.S.Q F := by
    rw [← h.M1_l2]
    refine m1.2 _ fun h0 => hne ?_
    have hk := ((C34_kernels_are_harmonic h).1 (v - u)).mpr h0
    have hun := (C73_laplacians_invertible_iff h ty).1.mpr ⟨hd, hs⟩
    have : v - u = 0 := by
      rw [← one_mulVec (v - u), ← nonsing_inv_mul _ hun, ← mulVec_mulVec, hk, mulVec_zero]
    exact sub_eq_zero.mp this
  linarith

/-- Case: the standard case. -/
example (polar : Bool) := C78_poisson_minimises (Case.adm polar true) ⟨rfl, by decide, by decide⟩ rfl (fun _ => by norm_num)

/-- **C78** the solution operator is linear, the energy of the solution is the work of the source, and it reproduces discrete solutions: if the source
acts on discrete functions like the Laplacian of a discrete function `c`, the solution is `c`. -/
theorem C78_poisson_linear (h : Admissible ns ps q types F polar dirichlet D) (ty : Toroidal types)
    (hd : dirichlet = true) (hs : polar = true → ns.1 ≤ ns.2.1) (f g : V3 → Fin 1 → ℝ) (s : ℝ) (c : Fin D.m0 → ℝ) :
    D.poisson0 (fun x => s • f x + g x) = s • D.poisson0 f + D.poisson0 g ∧
    l2Product (D.phys1 (D.strongGrad *ᵥ D.poisson0 f)) (D.phys1 (D.strongGrad *ᵥ D.poisson0 f)) D.S.Q F =
      l2Product (D.phys0 (D.poisson0 f)) f D.S.Q F ∧
    D.poisson0 (D.phys0 (D.dd0 *ᵥ c)) = c := by
  have hw := fun f => (C78_poisson_weak_form h ty hd hs f _).mp rfl
  refine ⟨?_, hw f _, ?_⟩
  · refine ((C78_poisson_weak_form h ty hd hs _ _).mpr fun v => ?_).symm
    have e : l2Product (D.phys0 v) (fun x => s • f x + g x) D.S.Q F = s * l2Product (D.phys0 v) f D.S.Q F + l2Product (D.phys0 v) g D.S.Q F := by
      rw [h.l2_eq, h.l2_eq, h.l2_eq, Finset.mul_sum, ← Finset.sum_add_distrib]
      refine Finset.sum_congr rfl fun j _ => ?_
      rw [dotProduct_add, dotProduct_smul, smul_eq_mul]; ring
    rw [e, ← hw f v, ← hw g v, ← h.M1_l2, ← h.M1_l2, ← h.M1_l2, mulVec_add, mulVec_smul, mulVec_add, mulVec_smul, dotProduct_add, dotProduct_smul, smul_eq_mul]
  · refine ((C78_poisson_weak_form h ty hd hs _ _).mpr fun v => ?_).symm
    rw [← dd0_l2 h, h.M0_l2]

/-- Case: the standard case. -/
example (polar : Bool) := C78_poisson_linear (Case.adm polar true) ⟨rfl, by decide, by decide⟩ rfl (fun _ => by norm_num)

/-- **C78** exactly when the two systems have a unique solution for every source: the scalar one needs Dirichlet conditions and on polar domains at most as
many radial as poloidal splines; the mixed one needs that there are no Dirichlet conditions and at most as many radial as poloidal splines, equally many
on polar domains. -/
theorem C78_poisson_wellposed_iff (h : Admissible ns ps q types F polar dirichlet D) (ty : Toroidal types) :
    (IsUnit (D.M0 * D.dd0).det ↔ dirichlet = true ∧ (polar = true → ns.1 ≤ ns.2.1)) ∧
    (IsUnit (D.M3 * D.dd3).det ↔ dirichlet = false ∧ ns.1 ≤ ns.2.1 ∧ (polar = true → ns.1 = ns.2.1)) := by
  obtain ⟨m0, m1, m2, m3⟩ := C31_mass_matrices_definite h
  obtain ⟨i0, _, _, i3⟩ := C73_laplacians_invertible_iff h ty
  rw [det_mul, IsUnit.mul_iff, det_mul, IsUnit.mul_iff, i0, i3]
  exact ⟨⟨fun e => e.2, fun e => ⟨m0.det, e⟩⟩, ⟨fun e => e.2, fun e => ⟨m3.det, e⟩⟩⟩

/-- Case: the standard case. -/
example (polar dirichlet : Bool) := C78_poisson_wellposed_iff (Case.adm polar dirichlet) ⟨rfl, by decide, by decide⟩

/-- **C78** mixed formulation (wherever it is well posed), without Dirichlet conditions on the flux: `u = solve(M3 @ dd3, P3(f))` with the flux
`σ = weak_grad u` is the one pair of discrete fields with `(σ, τ) = -(u, div τ)` for all fluxes `τ` and `-(div σ, v) = (f, v)` for all
densities `v`. -/
theorem C78_mixed_poisson (h : Admissible ns ps q types F polar dirichlet D) (ty : Toroidal types)
    (hd : dirichlet = false) (hs : ns.1 ≤ ns.2.1) (hs' : polar = true → ns.1 = ns.2.1) (f : V3 → Fin 1 → ℝ) (u : Fin D.m3 → ℝ) (σ : Fin D.m2 → ℝ) :
    (u = D.poisson3 f ∧ σ = D.weakGrad *ᵥ u) ↔
      (∀ τ, l2Product (D.phys2 τ) (D.phys2 σ) D.S.Q F = -l2Product (D.phys3 (D.strongDiv *ᵥ τ)) (D.phys3 u) D.S.Q F) ∧
      (∀ v, -l2Product (D.phys3 v) (D.phys3 (D.strongDiv *ᵥ σ)) D.S.Q F = l2Product (D.phys3 v) f D.S.Q F) := by
  obtain ⟨m0, m1, m2, m3⟩ := C31_mass_matrices_definite h
  have hun := unit_mul m3 ((C73_laplacians_invertible_iff h ty).2.2.2.mpr ⟨hd, hs, hs'⟩)
  have adj := (C32_adjoint_operators h.built m0.det m1.det m2.det m3.det).2.2
  have hσ : σ = D.weakGrad *ᵥ u ↔
      ∀ τ, l2Product (D.phys2 τ) (D.phys2 σ) D.S.Q F = -l2Product (D.phys3 (D.strongDiv *ᵥ τ)) (D.phys3 u) D.S.Q F := by
    constructor
    · rintro rfl τ
      rw [← h.M2_l2, ← h.M3_l2]
      have := adj τ u
      linarith
    · intro e
      have : D.M2 *ᵥ σ = D.M2 *ᵥ (D.weakGrad *ᵥ u) := dot_ext fun τ => by
        have e1 := e τ
        rw [← h.M2_l2, ← h.M3_l2] at e1
        have := adj τ u
        linarith
      rw [← one_mulVec σ, ← m2.inv_mul, ← mulVec_mulVec, this, mulVec_mulVec, m2.inv_mul, one_mulVec]
  have hu : u = D.poisson3 f ↔ (D.M3 * D.dd3) *ᵥ u = D.projector3 f := by
    unfold poisson3
    constructor
    · rintro rfl; rw [mulVec_mulVec, mul_nonsing_inv _ hun, one_mulVec]
    · intro e; rw [← e, mulVec_mulVec, nonsing_inv_mul _ hun, one_mulVec]
  have hm : ∀ v, σ = D.weakGrad *ᵥ u → v ⬝ᵥ (D.M3 * D.dd3) *ᵥ u = -l2Product (D.phys3 v) (D.phys3 (D.strongDiv *ᵥ σ)) D.S.Q F := by
    intro v hsg
    rw [← h.M3_l2, hsg]
    unfold dd3
    rw [Matrix.neg_mul, Matrix.mul_neg, neg_mulVec, dotProduct_neg, ← mulVec_mulVec, ← mulVec_mulVec]
  rw [hu, ← hσ]
  constructor
  · rintro ⟨a, b⟩
    exact ⟨b, fun v => by rw [← hm v b, a, h.proj3_l2]⟩
  · rintro ⟨b, a⟩
    exact ⟨dot_ext fun v => by rw [hm v b, a, h.proj3_l2], b⟩

/-- Case: the standard case. -/
example (polar : Bool) := C78_mixed_poisson (Case.adm polar false) ⟨rfl, by decide, by decide⟩ rfl (by norm_num) (fun _ => by norm_num)

/-! ## The error measure -/

theorem l2Norm_sq (h : Admissible ns ps q types F polar dirichlet D) (f : V3 → Fin 1 → ℝ) :
    0 ≤ D.l2Norm f ∧ D.l2Norm f ^ 2 = l2Product f f D.S.Q F ∧ (D.l2Norm f = 0 ↔ ∀ j < D.nq, f (D.x j) = 0) := by
  have e : (∑ i ∈ range D.nq, ∑ k : Fin 1, f (D.x i) k * f (D.x i) k * D.g.J i * D.w i) = l2Product f f D.S.Q F := by
    rw [h.l2_eq]
    refine Finset.sum_congr rfl fun j hj => ?_
    rw [(h.metricAt (mem_range.mp hj)).1]
    unfold dotProduct
    rw [Finset.sum_mul]
    exact Finset.sum_congr rfl fun k _ => by ring
  have nn : ∀ i ∈ range D.nq, 0 ≤ ∑ k : Fin 1, f (D.x i) k * f (D.x i) k * D.g.J i * D.w i := by
    intro i hi
    have hi := mem_range.mp hi
    have h1 := h.core.J i hi
    have h2 := w_pos h.core hi
    refine Finset.sum_nonneg fun k _ => ?_
    have := mul_self_nonneg (f (D.x i) k)
    positivity
  refine ⟨Real.sqrt_nonneg _, ?_, ?_⟩
  · unfold l2Norm
    rw [Real.sq_sqrt (Finset.sum_nonneg nn), e]
  · unfold l2Norm
    rw [Real.sqrt_eq_zero (Finset.sum_nonneg nn), Finset.sum_eq_zero_iff_of_nonneg nn]
    constructor
    · intro h0 j hj
      have := h0 j (mem_range.mpr hj)
      simp only [Fin.sum_univ_one, mul_eq_zero] at this
      have h1 := (h.core.J j hj).ne'
      have h2 := (w_pos h.core hj).ne'
      have h3 : f (D.x j) 0 = 0 := by tauto
      funext k
      rw [Subsingleton.elim k 0, h3]; rfl
    · intro h0 j hj
      rw [h0 j (mem_range.mp hj)]; simp

/-- **C78** the reported error: for a reference solution that does not vanish at all quadrature points, it is a non-negative number whose
square is the quotient of the squared L2 norms, and it is 0 exactly if the computed solution agrees with the reference at every quadrature
point. -/
theorem C78_relative_error (h : Admissible ns ps q types F polar dirichlet D) (u uh : V3 → Fin 1 → ℝ) (j : Nat) (hj : j < D.nq)
    (hu : u (D.x j) ≠ 0) :
    0 ≤ D.relativeError u uh ∧
    D.relativeError u uh ^ 2 * l2Product u u D.S.Q F = l2Product (fun x => u x - uh x) (fun x => u x - uh x) D.S.Q F ∧
    (D.relativeError u uh = 0 ↔ ∀ i < D.nq, uh (D.x i) = u (D.x i)) := by
  obtain ⟨a1, a2, a3⟩ := l2Norm_sq h u
  obtain ⟨b1, b2, b3⟩ := l2Norm_sq h fun x => u x - uh x
  have hne : D.l2Norm u ≠ 0 := fun e => hu (a3.mp e j hj)
  unfold relativeError
  refine ⟨div_nonneg b1 a1, ?_, ?_⟩
  · rw [div_pow, ← a2, ← b2, div_mul_cancel₀ _ (pow_ne_zero 2 hne)]
  · rw [div_eq_zero_iff, or_iff_left hne, b3]
    exact forall_congr' fun i => imp_congr_right fun _ => by rw [sub_eq_zero, eq_comm]

/-- Case: the standard case and the constant function 1. -/
example (polar dirichlet : Bool) (uh : V3 → Fin 1 → ℝ) (j : Nat) (hj : j < (Case.D polar dirichlet).nq) :=
  C78_relative_error (Case.adm polar dirichlet) (fun _ _ => 1) uh j hj (fun h => one_ne_zero (congrFun h 0))

end

/-! ## Thresholded pseudo-inverse -/

section
variable {n : Nat} {A : Matrix (Fin n) (Fin n) ℝ} {w : Fin n → ℝ} {V : Matrix (Fin n) (Fin n) ℝ} {tol : ℝ}

theorem eigh_inv (hV : IsEigh A w V) : V * Vᵀ = 1 := mul_eq_one_comm.mp hV.orth

theorem eigh_eq (hV : IsEigh A w V) : A = V * diagonal w * Vᵀ := by
  rw [← hV.eig, Matrix.mul_assoc, eigh_inv hV, Matrix.mul_one]

theorem diag_mul3 (hV : IsEigh A w V) (a b : Fin n → ℝ) : V * diagonal a * Vᵀ * (V * diagonal b * Vᵀ) = V * diagonal (fun k => a k * b k) * Vᵀ := by
  rw [Matrix.mul_assoc, ← Matrix.mul_assoc Vᵀ, ← Matrix.mul_assoc Vᵀ, hV.orth, Matrix.one_mul, ← Matrix.mul_assoc, Matrix.mul_assoc V, diagonal_mul_diagonal]

theorem diag_sym (a : Fin n → ℝ) : (V * diagonal a * Vᵀ)ᵀ = V * diagonal a * Vᵀ := by
  rw [transpose_mul, transpose_mul, transpose_transpose, diagonal_transpose, Matrix.mul_assoc]

theorem diag_inj (hV : IsEigh A w V) {a b : Fin n → ℝ} (e : V * diagonal a * Vᵀ = V * diagonal b * Vᵀ) : a = b := by
  have := congrArg (fun Z => Vᵀ * Z * V) e
  simp only [Matrix.mul_assoc, hV.orth, Matrix.mul_one] at this
  simp only [← Matrix.mul_assoc, hV.orth, Matrix.one_mul] at this
  exact diagonal_injective this

open Classical in
/-- **C78** the residual that `u = L_pinv @ f` leaves: the components of `f` along the eigenvectors whose eigenvalue does not exceed the
threshold in modulus, and nothing else; the solution has no component along these. -/
theorem C78_eigh_residual (hV : IsEigh A w V) (ht : 0 ≤ tol) (f : Fin n → ℝ) :
    f - A *ᵥ (eighPinv w V tol *ᵥ f) = ∑ k ∈ univ.filter (fun k => |w k| ≤ tol), (V.col k ⬝ᵥ f) • V.col k ∧
    (∀ k, |w k| ≤ tol → V.col k ⬝ᵥ eighPinv w V tol *ᵥ f = 0) := by
  have key : ∀ (a : Fin n → ℝ) (x : Fin n → ℝ), (V * diagonal a * Vᵀ) *ᵥ x = ∑ k, (a k * (V.col k ⬝ᵥ x)) • V.col k := by
    intro a x
    funext i
    rw [← mulVec_mulVec, ← mulVec_mulVec]
    simp only [mulVec, dotProduct, Finset.sum_apply, Pi.smul_apply, smul_eq_mul, Matrix.col_apply, diagonal_apply, transpose_apply]
    refine Finset.sum_congr rfl fun k _ => ?_
    rw [Finset.sum_eq_single k (fun b _ hb => by rw [if_neg (Ne.symm hb), zero_mul]) (fun hk => absurd (mem_univ k) hk), if_pos rfl]
    ring
  have hdot : ∀ j k, V.col j ⬝ᵥ V.col k = if j = k then 1 else 0 := fun j k => by
    have := hV.toG.col_dot j k
    rwa [one_mulVec] at this
  have hI : f = ∑ k, (V.col k ⬝ᵥ f) • V.col k := by
    have := hV.toG.expand f
    simpa only [one_mulVec] using this
  constructor
  · rw [mulVec_mulVec]
    conv_lhs => rw [eigh_eq hV]
    unfold eighPinv
    rw [diag_mul3 hV, key]
    conv_lhs => lhs; rw [hI]
    rw [← Finset.sum_sub_distrib, Finset.sum_filter]
    refine Finset.sum_congr rfl fun k _ => ?_
    by_cases hk : |w k| > tol
    · have hw : w k ≠ 0 := by intro e; rw [e, abs_zero] at hk; linarith
      rw [if_pos hk, if_neg (not_le.mpr hk), mul_one_div_cancel hw, one_mul, sub_self]
    · rw [if_neg hk, if_pos (not_lt.mp hk), mul_zero, zero_mul, zero_smul, sub_zero]
  · intro k hk
    unfold eighPinv
    rw [key, dotProduct_sum]
    refine Finset.sum_eq_zero fun j _ => ?_
    rw [dotProduct_smul, hdot]
    by_cases e : k = j
    · subst e; rw [if_neg (not_lt.mpr hk), zero_mul, zero_smul]
    · rw [if_neg e, smul_zero]

/-- Case: the identity matrix, with a cut-off below and one above its eigenvalue. -/
example := C78_eigh_residual (exists_eigh (A := (1 : Matrix (Fin 3) (Fin 3) ℝ)) (by simp)).choose_spec.choose_spec (tol := 1 / 2) (by norm_num)

/-- **C78** the matrix built in this way is the Moore-Penrose pseudo-inverse exactly if no non-zero eigenvalue is below the threshold. -/
theorem C78_eigh_pinv_iff (hV : IsEigh A w V) (ht : 0 ≤ tol) : IsPinv A (eighPinv w V tol) ↔ ∀ k, w k ≠ 0 → tol < |w k| := by
  classical
  have hA := eigh_eq hV
  have p1 : A * eighPinv w V tol = V * diagonal (fun k => w k * (if |w k| > tol then 1 / w k else 0)) * Vᵀ := by
    conv_lhs => rw [hA]
    exact diag_mul3 hV _ _
  have p2 : eighPinv w V tol * A = V * diagonal (fun k => (if |w k| > tol then 1 / w k else 0) * w k) * Vᵀ := by
    conv_lhs => rw [hA]
    exact diag_mul3 hV _ _
  constructor
  · intro hX k hk
    have e := hX.axa
    rw [p1] at e
    conv_lhs at e => rw [hA]
    conv_rhs at e => rw [hA]
    rw [diag_mul3 hV] at e
    have := congrFun (diag_inj hV e) k
    beta_reduce at this
    by_contra hlt
    rw [if_neg (show ¬ |w k| > tol from hlt), mul_zero, zero_mul] at this
    exact hk this.symm
  · intro hw
    have hz : ∀ k, w k = 0 ∨ |w k| > tol := fun k => (em (w k = 0)).imp id (hw k)
    have hn : ∀ k, |w k| > tol → w k ≠ 0 := fun k hk e => by rw [e, abs_zero] at hk; linarith
    refine ⟨?_, ?_, ?_, ?_⟩
    · rw [p1]
      conv_lhs => rw [hA]
      conv_rhs => rw [hA]
      rw [diag_mul3 hV]
      congr 3
      funext k
      rcases hz k with e | e
      · rw [e]; simp
      · rw [if_pos e, mul_one_div_cancel (hn k e), one_mul]
    · rw [p2]
      unfold eighPinv
      rw [diag_mul3 hV]
      congr 3
      funext k
      by_cases e : |w k| > tol
      · rw [if_pos e, one_div_mul_cancel (hn k e), one_mul]
      · rw [if_neg e, mul_zero]
    · rw [p1, diag_sym]
    · rw [p2, diag_sym]

example := C78_eigh_pinv_iff (exists_eigh (A := (1 : Matrix (Fin 3) (Fin 3) ℝ)) (by simp)).choose_spec.choose_spec (tol := 2) (by norm_num)

end

section
variable {ns ps : Nat × Nat × Nat} {q : Nat} {types : String × String × String} {F : V3 → V3} {polar dirichlet : Bool} {D : DeRham}

/-- **C78** vector Poisson problem with this pseudo-inverse (threshold below all non-zero eigenvalues), for every admissible sequence: the
system `M2 dd2 u = P2(f)` is solved exactly if and only if the source is L2-orthogonal to all discrete harmonic fields. -/
theorem C78_vector_poisson (h : Admissible ns ps q types F polar dirichlet D) {w : Fin D.m2 → ℝ} {V : Matrix (Fin D.m2) (Fin D.m2) ℝ}
    (hV : IsEigh (symmetrize (D.M2 * D.dd2)) w V) {tol : ℝ} (ht : 0 ≤ tol) (hw : ∀ k, w k ≠ 0 → tol < |w k|) (f : V3 → V3) :
    (D.M2 * D.dd2) *ᵥ (eighPinv w V tol *ᵥ D.projector2 f) = D.projector2 f ↔
      ∀ v, D.strongDiv *ᵥ v = 0 → D.weakCurl *ᵥ v = 0 → l2Product (D.phys2 v) f D.S.Q F = 0 := by
  classical
  have m2 := (C31_mass_matrices_definite h).2.2.1
  have s2 := (C34_laplacians_semidefinite h).2.2.1
  rw [symmetrize_eq s2.1] at hV
  have hk2 := (C34_kernels_are_harmonic h).2.2.1
  have hX := (C78_eigh_pinv_iff hV ht).mpr hw
  obtain ⟨A, hA⟩ : ∃ A, A = D.M2 * D.dd2 := ⟨_, rfl⟩
  have hker : ∀ v, (D.strongDiv *ᵥ v = 0 ∧ D.weakCurl *ᵥ v = 0) ↔ A *ᵥ v = 0 := fun v => by
    rw [← hk2 v, hA]
    have := SetLike.ext_iff.mp (ker_mul_dd (A := D.dd2) m2) v
    simpa only [LinearMap.mem_ker, mulVecLin_apply] using this.symm
  rw [← hA] at hX hV s2 ⊢
  constructor
  · intro e v h1 h2
    rw [← h.proj2_l2, ← e, sym_dot s2.1, (hker v).mp ⟨h1, h2⟩, dotProduct_zero]
  · intro e
    have hr : A *ᵥ (D.projector2 f - A *ᵥ (eighPinv w V tol *ᵥ D.projector2 f)) = 0 := by
      -- A (1 - A X) = (A (1 - A X)ᵀ)... by symmetry of A and A X
      have : A * (A * eighPinv w V tol) = A := by
        have e1 := congrArg transpose hX.axa
        rw [transpose_mul, hX.ax, s2.1] at e1
        exact e1
      rw [mulVec_sub, mulVec_mulVec, mulVec_mulVec, Matrix.mul_assoc, this, sub_self]
    obtain ⟨c1, c2⟩ := (hker _).mpr hr
    have e0 := e _ c1 c2
    rw [← h.proj2_l2] at e0
    have e1 : (D.projector2 f - A *ᵥ (eighPinv w V tol *ᵥ D.projector2 f)) ⬝ᵥ A *ᵥ (eighPinv w V tol *ᵥ D.projector2 f) = 0 := by
      rw [sym_dot s2.1, hr, dotProduct_zero]
    have e2 : (D.projector2 f - A *ᵥ (eighPinv w V tol *ᵥ D.projector2 f)) ⬝ᵥ
        (D.projector2 f - A *ᵥ (eighPinv w V tol *ᵥ D.projector2 f)) = 0 := by
      rw [dotProduct_sub, e0, e1, sub_zero]
    exact (sub_eq_zero.mp (dotProduct_self_eq_zero.mp e2)).symm

/-- non-vacuity: the configurations of the tutorials `polar_poisson.py` (Dirichlet) and `mixed_polar_poisson.py` (not), here with 8 splines of
degree 3 in the plane, for a map with Jacobian determinant 1. -/
example : ∀ dirichlet, ∃ D, Admissible (8, 8, 1) (3, 3, 0) 5 ("clamped", "periodic", "constant") (fun y => y) true dirichlet D ∧
    Compatible (8, 8, 1) ("clamped", "periodic", "constant") dirichlet := fun dirichlet => by
  obtain ⟨D, h⟩ := Admissible.exists (ns := (8, 8, 1)) (ps := (3, 3, 0)) (q := 5) (types := ("clamped", "periodic", "constant"))
    (fun y => y) true dirichlet (by norm_num) (by unfold DirOK; norm_num) (by unfold DirOK; norm_num) (by unfold DirOK; norm_num)
    (by simp) fun x => by rw [jacobianDeterminant_id]; norm_num
  exact ⟨D, h, by constructor <;> simp⟩

/-- non-vacuity of the threshold: there always is one. -/
example {n : Nat} (w : Fin n → ℝ) : ∃ tol : ℝ, 0 ≤ tol ∧ ∀ k, w k ≠ 0 → tol < |w k| := ⟨0, le_refl _, fun k hk => abs_pos.mpr hk⟩

end
end Mrx.Props
