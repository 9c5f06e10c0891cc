import Verif.Proofs.Case
import Verif.Proofs.Fields

/-!
# C31, C32, C36, C39: mass matrices, adjoint operators, projectors

`Admissible ns ps q types F polar dirichlet D` says that `D` is what the constructor returns for these parameters and that the
map has Jacobian determinant at least `1e-5` at the quadrature points. `Admissible.exists` shows that every such choice of
parameters gives a sequence; `Admissible.example` is a concrete one.
-/

set_option linter.unusedSectionVars false
set_option linter.unusedVariables false

namespace Mrx.Props
open Finset Spec Matrix DeRham

section
variable {ns ps : Nat × Nat × Nat} {q : Nat} {types : String × String × String} {F : V3 → V3} {polar dirichlet : Bool} {D : DeRham}

/-! ## C31 -/

/-- **C31** a matrix assembled from any table with symmetric positive semidefinite weights is symmetric positive semidefinite. -/
theorem C31_assembled_semidefinite (g : Getter) (nq d n : Nat) (W : Nat → Matrix (Fin d) (Fin d) ℝ) (hW : ∀ j < nq, SPSD (W j)) :
    SPSD (assemble g g nq d W n n) := assemble_psd g W hW

/-- Case: two points, one component, weights 1 and 0. -/
example := C31_assembled_semidefinite (fun i j _ => i + j) 2 1 3 (fun j => if j = 0 then 1 else 0)
  (by intro j _; split_ifs <;> refine ⟨by simp, fun x => ?_⟩ <;> simp [dotProduct, mul_self_nonneg])

/-- **C31** with definite weights it is positive definite iff the only coefficient vector whose field vanishes at all quadrature
points is zero. -/
theorem C31_assembled_definite_iff (g : Getter) (nq d n : Nat) (W : Nat → Matrix (Fin d) (Fin d) ℝ) (hW : ∀ j < nq, SPD (W j)) :
    SPD (assemble g g nq d W n n) ↔ ∀ c : Fin n → ℝ, (∀ j < nq, ∀ k < d, evaluateAtXq g c j k = 0) → c = 0 := by
  have hp := assemble_psd (n := n) g W fun j hj => (hW j hj).psd
  constructor
  · intro hs c hc
    exact hs.eq_zero ((assemble_zero_iff g W hW c).mpr hc)
  · intro hz
    refine ⟨hp.1, fun x hx => lt_of_le_of_ne (hp.2 x) fun h0 => hx (hz x ?_)⟩
    exact (assemble_zero_iff g W hW x).mp h0.symm

/-- Case: two points, one component, unit weights; with these values the matrix is definite. -/
example := C31_assembled_definite_iff (fun i j _ => if i = j then 1 else 0) 2 1 2 (fun _ => 1)
  (by intro j _; refine ⟨by simp, fun x hx => ?_⟩
      simp only [one_mulVec, dotProduct, Fin.sum_univ_one]
      refine mul_self_pos.mpr fun h => hx (funext fun i => ?_)
      rw [Subsingleton.elim i 0, h]; rfl)

/-- **C31** the four mass matrices of every admissible sequence are symmetric positive definite. -/
theorem C31_mass_matrices_definite (h : Admissible ns ps q types F polar dirichlet D) :
    SPD D.M0 ∧ SPD D.M1 ∧ SPD D.M2 ∧ SPD D.M3 :=
  ⟨M0_spd h.core, M1_spd h.core, M2_spd h.core, M3_spd h.core⟩

/-- **C31** they are the Gram matrices of the physical fields under the quadrature rule. -/
theorem C31_mass_is_l2_product (h : Admissible ns ps q types F polar dirichlet D) :
    (∀ u v, u ⬝ᵥ D.M0 *ᵥ v = l2Product (D.phys0 u) (D.phys0 v) D.S.Q F) ∧
    (∀ u v, u ⬝ᵥ D.M1 *ᵥ v = l2Product (D.phys1 u) (D.phys1 v) D.S.Q F) ∧
    (∀ u v, u ⬝ᵥ D.M2 *ᵥ v = l2Product (D.phys2 u) (D.phys2 v) D.S.Q F) ∧
    (∀ u v, u ⬝ᵥ D.M3 *ᵥ v = l2Product (D.phys3 u) (D.phys3 v) D.S.Q F) :=
  ⟨h.M0_l2, h.M1_l2, h.M2_l2, h.M3_l2⟩

/-- non-vacuity. -/
example : ∃ D, Admissible (5, 6, 4) (3, 2, 1) 4 ("clamped", "periodic", "periodic") (fun y => y) true true D ∧ SPD D.M2 := by
  obtain ⟨D, h⟩ := Admissible.example true true
  exact ⟨D, h, (C31_mass_matrices_definite h).2.2.1⟩

/-- The configuration used by the scripts: `n = (8, 8, 6)`, cubic splines and `q = max(ps) = 3` points per element. -/
example (polar dirichlet : Bool) : ∃ D, Admissible (8, 8, 6) (3, 3, 3) 3 ("clamped", "periodic", "periodic") (fun y => y) polar dirichlet D
    ∧ SPD D.M0 ∧ SPD D.M1 ∧ SPD D.M2 ∧ SPD D.M3 := by
  obtain ⟨D, h⟩ := Admissible.exists (ns := (8, 8, 6)) (ps := (3, 3, 3)) (q := 3) (types := ("clamped", "periodic", "periodic"))
    (fun y => y) polar dirichlet (by norm_num) (by unfold DirOK; norm_num) (by unfold DirOK; norm_num) (by unfold DirOK; norm_num)
    (by intro _; simp) fun x => by rw [jacobianDeterminant_id]; norm_num
  exact ⟨D, h, C31_mass_matrices_definite h⟩

theorem few_points (g : Getter) {nq d n m : Nat} (W : Nat → Matrix (Fin d) (Fin d) ℝ) (E : Matrix (Fin m) (Fin n) ℝ) (h : nq * d < m) :
    ∃ x : Fin m → ℝ, x ≠ 0 ∧ (E * assemble g g nq d W n n * Eᵀ) *ᵥ x = 0 := by
  obtain ⟨T, hT⟩ : ∃ T : Matrix (Fin nq × Fin d) (Fin n) ℝ, T = (fun (jk : Fin nq × Fin d) (a : Fin n) => g a jk.1 jk.2) := ⟨_, rfl⟩
  have hk : ∃ x : Fin m → ℝ, x ≠ 0 ∧ (T * Eᵀ).mulVecLin x = 0 := by
    have : LinearMap.ker (T * Eᵀ).mulVecLin ≠ ⊥ := by
      refine LinearMap.ker_ne_bot_of_finrank_lt ?_
      simpa using h
    obtain ⟨x, hx, h0⟩ := (Submodule.ne_bot_iff _).mp this
    exact ⟨x, h0, hx⟩
  obtain ⟨x, h0, hx⟩ := hk
  refine ⟨x, h0, ?_⟩
  rw [mulVecLin_apply, ← mulVec_mulVec] at hx
  have hz : assemble g g nq d W n n *ᵥ (Eᵀ *ᵥ x) = assemble g g nq d W n n *ᵥ (0 : Fin n → ℝ) := by
    refine assemble_mulVec_congr g g g W _ _ fun j hj k hk => ?_
    have := congrFun hx (⟨j, hj⟩, ⟨k, hk⟩)
    rw [hT] at this
    refine Eq.trans this ?_
    show (0 : ℝ) = evaluateAtXq g (0 : Fin n → ℝ) j k
    rw [show evaluateAtXq g (0 : Fin n → ℝ) j k = ∑ a : Fin n, g a j k * (0 : Fin n → ℝ) a from rfl]
    simp
  rw [← mulVec_mulVec, ← mulVec_mulVec, hz, mulVec_zero, mulVec_zero]

/-- **C31** (limits) a sequence with fewer quadrature values than degrees of freedom has a singular mass matrix: its inverse,
and with it every weak operator and projection, is meaningless. -/
theorem C31_too_few_points (D : DeRham) :
    (D.nq < D.m0 → D.M0.det = 0) ∧ (3 * D.nq < D.m1 → D.M1.det = 0) ∧ (3 * D.nq < D.m2 → D.M2.det = 0) ∧
      (D.nq < D.m3 → D.M3.det = 0) := by
  refine ⟨fun h => ?_, fun h => ?_, fun h => ?_, fun h => ?_⟩
  · obtain ⟨x, h0, h1⟩ := few_points D.S.getLambda0 (nq := D.nq) D.W0 D.E0 (by omega)
    exact Matrix.exists_mulVec_eq_zero_iff.mp ⟨x, h0, h1⟩
  · obtain ⟨x, h0, h1⟩ := few_points D.S.getLambda1 (nq := D.nq) D.W1 D.E1 (by omega)
    exact Matrix.exists_mulVec_eq_zero_iff.mp ⟨x, h0, h1⟩
  · obtain ⟨x, h0, h1⟩ := few_points D.S.getLambda2 (nq := D.nq) D.W2 D.E2 (by omega)
    exact Matrix.exists_mulVec_eq_zero_iff.mp ⟨x, h0, h1⟩
  · obtain ⟨x, h0, h1⟩ := few_points D.S.getLambda3 (nq := D.nq) D.W3 D.E3 (by omega)
    exact Matrix.exists_mulVec_eq_zero_iff.mp ⟨x, h0, h1⟩

/-- **C31** (limits) `q = max(ps)` with linear splines: one point per element leaves `assemble_M0` singular for every
resolution of a non-polar sequence without Dirichlet conditions. -/
theorem C31_linear_one_point {nr nt nz : Nat} (h1 : 2 ≤ nr) (h2 : 1 ≤ nt) (h3 : 1 ≤ nz)
    (hD : DeRham.mk? (nr, nt, nz) (1, 1, 1) 1 ("clamped", "periodic", "periodic") F false false = .ok D) : D.M0.det = 0 := by
  refine (C31_too_few_points D).1 ?_
  unfold DeRham.mk? at hD
  split at hD
  · cases hD
  rename_i S hS
  obtain rfl : DeRham.ofBoundary S F false = D := Except.ok.inj hD
  obtain ⟨m0, _, _, _, hQ⟩ := Seq.mk?_inv hS
  obtain ⟨_, hd, s0, s1, s2, d0, d1, d2⟩ := Form.mk?_inv m0
  have hm : (DeRham.ofBoundary S F false).m0 = nr * nt * nz := by
    show (BoundaryOp.mk S.L0.dims (DeRham.bcTypes false)).rowDims.n = _
    rw [hd]
    simp [BoundaryOp.rowDims, DeRham.bcTypes, Dims.n, Dims.n1, Dims.n2, Dims.n3, Dims.shape, getDim]
  have hn : (DeRham.ofBoundary S F false).nq = nt * (nr - 1) * nz := by
    show S.Q.w.length = _
    unfold Quad.Rule.mk? at hQ
    split at hQ
    case h_2 => cases hQ
    rename_i rx ry rz hx hy hz
    obtain ⟨xs, ws, e1, -, l1, l2, -⟩ := C11_select_rule nr 1 (le_refl _) "clamped" (nr - 1) (Or.inl ⟨rfl, by omega, rfl⟩) _ s0 1 (le_refl _) (by omega)
    obtain ⟨ys, us, f1, -, g1, g2, -⟩ := C11_select_rule nt 1 (le_refl _) "periodic" nt (Or.inr ⟨rfl, h2, Or.inr rfl, rfl⟩) _ s1 1 (le_refl _) (by omega)
    obtain ⟨zs, vs, i1, -, j1, j2, -⟩ := C11_select_rule nz 1 (le_refl _) "periodic" nz (Or.inr ⟨rfl, h3, Or.inr rfl, rfl⟩) _ s2 1 (le_refl _) (by omega)
    obtain rfl := Except.ok.inj (hx.symm.trans e1)
    obtain rfl := Except.ok.inj (hy.symm.trans f1)
    obtain rfl := Except.ok.inj (hz.symm.trans i1)
    rw [← Except.ok.inj hQ, (C14_tensor_rule_order (xs, ws) (ys, us) (zs, vs) (l1.trans l2.symm) (g1.trans g2.symm) (j1.trans j2.symm)).2.1]
    show ys.length * xs.length * zs.length = _
    rw [l1, g1, j1]; ring
  rw [hm, hn, Nat.mul_comm nt (nr - 1)]
  have hlt : (nr - 1) * nt < nr * nt := Nat.mul_lt_mul_of_pos_right (by omega) h2
  exact Nat.mul_lt_mul_of_pos_right hlt h3

/-- Case: 4 × 3 × 2 linear splines. -/
example : ∃ D, DeRham.mk? (4, 3, 2) (1, 1, 1) 1 ("clamped", "periodic", "periodic") (fun y => y) false false = .ok D ∧ D.M0.det = 0 := by
  obtain ⟨D, h⟩ : ∃ D, DeRham.mk? (4, 3, 2) (1, 1, 1) 1 ("clamped", "periodic", "periodic") (fun y => y) false false = .ok D := ⟨_, rfl⟩
  exact ⟨D, h, C31_linear_one_point (by norm_num) (by norm_num) (by norm_num) h⟩

/-! ## C32 -/

theorem Winv_sym (hb : DeRham.mk? ns ps q types F polar dirichlet = .ok D) (j : Nat) :
    (D.W1 j)ᵀ = D.W1 j ∧ (D.W2 j)ᵀ = D.W2 j := by
  obtain ⟨hg, _⟩ := Admissible.metric hb
  have hG : (D.g.G j)ᵀ = D.g.G j := by rw [hg]; simp only [Metric.ofMap, transpose_mul, transpose_transpose]
  have hI : (D.g.Ginv j)ᵀ = D.g.Ginv j := by
    rw [hg]; simp only [Metric.ofMap]; rw [← C21_inv33_transpose, transpose_mul, transpose_transpose]
  constructor
  · ext k l; have := congrFun (congrFun hI k) l; simp only [transpose_apply, W1] at this ⊢; rw [this]
  · ext k l; have := congrFun (congrFun hG k) l; simp only [transpose_apply, W2] at this ⊢; rw [this]

theorem mass_sym (hb : DeRham.mk? ns ps q types F polar dirichlet = .ok D) :
    D.M0ᵀ = D.M0 ∧ D.M1ᵀ = D.M1 ∧ D.M2ᵀ = D.M2 ∧ D.M3ᵀ = D.M3 := by
  have key : ∀ {m n d : Nat} (g : Getter) (E : Matrix (Fin m) (Fin n) ℝ) (W : Nat → Matrix (Fin d) (Fin d) ℝ), (∀ j, (W j)ᵀ = W j) →
      (E * assemble g g D.nq d W n n * Eᵀ)ᵀ = E * assemble g g D.nq d W n n * Eᵀ := by
    intro m n d g E W hW
    rw [transpose_mul, transpose_mul, transpose_transpose, assemble_transpose g g W fun j _ => hW j, Matrix.mul_assoc]
  exact ⟨key _ _ _ fun j => by ext; rfl, key _ _ _ fun j => (Winv_sym hb j).1, key _ _ _ fun j => (Winv_sym hb j).2,
    key _ _ _ fun j => by ext; rfl⟩

theorem adjoint_aux {n m : Nat} {A : Matrix (Fin n) (Fin n) ℝ} {B : Matrix (Fin m) (Fin m) ℝ} (C : Matrix (Fin n) (Fin m) ℝ)
    (hA : Aᵀ = A) (hB : Bᵀ = B) (uA : IsUnit A.det) (uB : IsUnit B.det) (u : Fin m → ℝ) (v : Fin n → ℝ) :
    (solve A C *ᵥ u) ⬝ᵥ A *ᵥ v = u ⬝ᵥ B *ᵥ (solve Bᵀ Cᵀ *ᵥ v) := by
  unfold solve
  rw [hB]
  have e1 : u ⬝ᵥ B *ᵥ ((B⁻¹ * Cᵀ) *ᵥ v) = u ⬝ᵥ Cᵀ *ᵥ v := by
    rw [mulVec_mulVec, ← Matrix.mul_assoc, mul_nonsing_inv _ uB, Matrix.one_mul]
  have e2 : ((A⁻¹ * C) *ᵥ u) ⬝ᵥ A *ᵥ v = (C *ᵥ u) ⬝ᵥ v := by
    rw [transpose_dot, hA, mulVec_mulVec, ← Matrix.mul_assoc, mul_nonsing_inv _ uA, Matrix.one_mul]
  rw [e1, e2, transpose_dot, transpose_transpose]

/-- **C32** for every sequence the constructor returns whose mass matrices are nonsingular, the weak operators are the (negative)
adjoints of the strong ones with respect to the mass inner products. -/
theorem C32_adjoint_operators (hb : DeRham.mk? ns ps q types F polar dirichlet = .ok D)
    (h0 : IsUnit D.M0.det) (h1 : IsUnit D.M1.det) (h2 : IsUnit D.M2.det) (h3 : IsUnit D.M3.det) :
    (∀ u v, (D.strongGrad *ᵥ u) ⬝ᵥ D.M1 *ᵥ v = -(u ⬝ᵥ D.M0 *ᵥ (D.weakDiv *ᵥ v))) ∧
    (∀ v w, (D.strongCurl *ᵥ v) ⬝ᵥ D.M2 *ᵥ w = v ⬝ᵥ D.M1 *ᵥ (D.weakCurl *ᵥ w)) ∧
    (∀ w s, (D.strongDiv *ᵥ w) ⬝ᵥ D.M3 *ᵥ s = -(w ⬝ᵥ D.M2 *ᵥ (D.weakGrad *ᵥ s))) := by
  obtain ⟨s0, s1, s2, s3⟩ := mass_sym hb
  refine ⟨fun u v => ?_, fun v w => adjoint_aux D.D1 s2 s1 h2 h1 v w, fun w s => ?_⟩
  · unfold strongGrad weakDiv
    rw [neg_mulVec, mulVec_neg, dotProduct_neg, neg_neg]
    exact adjoint_aux D.D0 s1 s0 h1 h0 u v
  · unfold strongDiv weakGrad
    rw [neg_mulVec, mulVec_neg, dotProduct_neg, neg_neg]
    exact adjoint_aux D.D2 s3 s2 h3 h2 w s

/-- Case: the standard case. -/
example (polar dirichlet : Bool) := C32_adjoint_operators (Case.adm polar dirichlet).built
  (SPD.det (C31_mass_matrices_definite (Case.adm polar dirichlet)).1)
  (SPD.det (C31_mass_matrices_definite (Case.adm polar dirichlet)).2.1)
  (SPD.det (C31_mass_matrices_definite (Case.adm polar dirichlet)).2.2.1)
  (SPD.det (C31_mass_matrices_definite (Case.adm polar dirichlet)).2.2.2)

/-- **C32** in particular for every admissible sequence, in terms of the physical fields: `∫ grad u · v = -∫ u weak_div v` etc. -/
theorem C32_adjoint_fields (h : Admissible ns ps q types F polar dirichlet D) :
    (∀ u v, l2Product (D.phys1 (D.strongGrad *ᵥ u)) (D.phys1 v) D.S.Q F
      = -l2Product (D.phys0 u) (D.phys0 (D.weakDiv *ᵥ v)) D.S.Q F) ∧
    (∀ v w, l2Product (D.phys2 (D.strongCurl *ᵥ v)) (D.phys2 w) D.S.Q F
      = l2Product (D.phys1 v) (D.phys1 (D.weakCurl *ᵥ w)) D.S.Q F) ∧
    (∀ w s, l2Product (D.phys3 (D.strongDiv *ᵥ w)) (D.phys3 s) D.S.Q F
      = -l2Product (D.phys2 w) (D.phys2 (D.weakGrad *ᵥ s)) D.S.Q F) := by
  obtain ⟨m0, m1, m2, m3⟩ := C31_mass_matrices_definite h
  have := C32_adjoint_operators h.built m0.det m1.det m2.det m3.det
  simpa only [h.M0_l2, h.M1_l2, h.M2_l2, h.M3_l2] using this

/-- Case: the standard case. -/
example (polar dirichlet : Bool) := C32_adjoint_fields (Case.adm polar dirichlet)

/-! ## C36 -/

/-- **C36** pairing any coefficient vector with the result of a projector is the L2 product of its physical field with the projected
function: the projectors are the load vectors of the L2 projection. -/
theorem C36_projectors_are_load_vectors (h : Admissible ns ps q types F polar dirichlet D) :
    (∀ a f, a ⬝ᵥ D.projector0 f = l2Product (D.phys0 a) f D.S.Q F) ∧
    (∀ a f, a ⬝ᵥ D.projector1 f = l2Product (D.phys1 a) f D.S.Q F) ∧
    (∀ a f, a ⬝ᵥ D.projector2 f = l2Product (D.phys2 a) f D.S.Q F) ∧
    (∀ a f, a ⬝ᵥ D.projector3 f = l2Product (D.phys3 a) f D.S.Q F) :=
  ⟨h.proj0_l2, h.proj1_l2, h.proj2_l2, h.proj3_l2⟩

/-- Case: the standard case. -/
example (polar dirichlet : Bool) := C36_projectors_are_load_vectors (Case.adm polar dirichlet)

theorem dot_ext {n : Nat} {x y : Fin n → ℝ} (h : ∀ a, a ⬝ᵥ x = a ⬝ᵥ y) : x = y := by
  funext i
  simpa using h (Pi.single i 1)

/-- **C36** applied to the physical field of a discrete form with coefficients `c`, the projector returns `M c`, and solving with the
mass matrix returns `c`. -/
theorem C36_projection_reproduces (h : Admissible ns ps q types F polar dirichlet D) :
    (∀ c, D.projector0 (D.phys0 c) = D.M0 *ᵥ c ∧ D.M0⁻¹ *ᵥ D.projector0 (D.phys0 c) = c) ∧
    (∀ c, D.projector1 (D.phys1 c) = D.M1 *ᵥ c ∧ D.M1⁻¹ *ᵥ D.projector1 (D.phys1 c) = c) ∧
    (∀ c, D.projector2 (D.phys2 c) = D.M2 *ᵥ c ∧ D.M2⁻¹ *ᵥ D.projector2 (D.phys2 c) = c) ∧
    (∀ c, D.projector3 (D.phys3 c) = D.M3 *ᵥ c ∧ D.M3⁻¹ *ᵥ D.projector3 (D.phys3 c) = c) := by
  obtain ⟨m0, m1, m2, m3⟩ := C31_mass_matrices_definite h
  have key : ∀ {n : Nat} {A : Matrix (Fin n) (Fin n) ℝ} (hA : SPD A) {x c : Fin n → ℝ}, (∀ a, a ⬝ᵥ x = a ⬝ᵥ A *ᵥ c) →
      x = A *ᵥ c ∧ A⁻¹ *ᵥ x = c := by
    intro n A hA x c hx
    have e := dot_ext hx
    exact ⟨e, by rw [e, mulVec_mulVec, hA.inv_mul, one_mulVec]⟩
  exact ⟨fun c => key m0 fun a => by rw [h.proj0_l2, h.M0_l2], fun c => key m1 fun a => by rw [h.proj1_l2, h.M1_l2],
    fun c => key m2 fun a => by rw [h.proj2_l2, h.M2_l2], fun c => key m3 fun a => by rw [h.proj3_l2, h.M3_l2]⟩

/-- Case: the standard case. -/
example (polar dirichlet : Bool) := C36_projection_reproduces (Case.adm polar dirichlet)

/-- **C36** the L2 projection `M⁻¹ projector f` is the best approximation: the error is orthogonal to every discrete field. -/
theorem C36_projection_error_orthogonal (h : Admissible ns ps q types F polar dirichlet D) (v : V3 → V3) (a : Fin D.m2 → ℝ) :
    l2Product (D.phys2 a) v D.S.Q F = l2Product (D.phys2 a) (D.phys2 (D.M2⁻¹ *ᵥ D.projector2 v)) D.S.Q F := by
  have m2 := (C31_mass_matrices_definite h).2.2.1
  rw [← h.proj2_l2, ← h.M2_l2, mulVec_mulVec, m2.mul_inv, one_mulVec]

/-- Case: the standard case and the field `(y, -x, 1)`. -/
example (polar dirichlet : Bool) := C36_projection_error_orthogonal (Case.adm polar dirichlet) (fun x => ![x 1, -x 0, 1])

/-! ## C39 -/

/-- **C39** `evaluate_at_xq` and `integrate_against` are transposes of each other. -/
theorem C39_evaluate_integrate_adjoint (g : Getter) (nq d n : Nat) (c : Fin n → ℝ) (f : Nat → Fin d → ℝ) :
    (∑ j ∈ range nq, ∑ k : Fin d, evaluateAtXq g c j k * f j k) = ∑ i, c i * integrateAgainst g nq d f n i := by
  have := Admissible.integrate_dot g (nq := nq) f (1 : Matrix (Fin n) (Fin n) ℝ) c
  simp only [one_mulVec, transpose_one, dotProduct] at this
  exact this.symm

/-- **C39** the tabulated evaluation is the value of the `DiscreteFunction` at the quadrature point, for all four degrees. -/
theorem C39_evaluate_is_discrete_function (h : Admissible ns ps q types F polar dirichlet D) (j : Nat) (x : ℝ × ℝ × ℝ)
    (hx : D.S.Q.x[j]? = some x) :
    (∀ u, evaluateAtXq D.S.getLambda0 (D.E0ᵀ *ᵥ u) j 0 = discreteFunction D.S.L0 u D.E0 x 0) ∧
    (∀ u, ∀ k < 3, evaluateAtXq D.S.getLambda1 (D.E1ᵀ *ᵥ u) j k = discreteFunction D.S.L1 u D.E1 x k) ∧
    (∀ u, ∀ k < 3, evaluateAtXq D.S.getLambda2 (D.E2ᵀ *ᵥ u) j k = discreteFunction D.S.L2 u D.E2 x k) ∧
    (∀ u, evaluateAtXq D.S.getLambda3 (D.E3ᵀ *ᵥ u) j 0 = discreteFunction D.S.L3 u D.E3 x 0) := by
  obtain ⟨a, b, c, d⟩ := C19_getters_agree ns ps q types D.S (Admissible.seq h.built) j x hx
  exact ⟨fun u => evaluateAtXq_eq_discrete D.E0 u a, fun u k hk => evaluateAtXq_eq_discrete D.E1 u fun i hi => b i hi k hk,
    fun u k hk => evaluateAtXq_eq_discrete D.E2 u fun i hi => c i hi k hk, fun u => evaluateAtXq_eq_discrete D.E3 u d⟩

example : integrateAgainst (fun i j k => (i + 1) * j + k) 3 1 (fun j _ => j) 2 = ![5, 10] := by
  funext i; fin_cases i <;> norm_num [integrateAgainst, Finset.sum_range_succ]

end
end Mrx.Props
