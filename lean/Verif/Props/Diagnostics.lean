import Verif.Proofs.Case
import Verif.Props.HarmonicAll
import Verif.Model.Diagnostics
import Verif.Props.Pointwise

/-!
# C74, C75: what the diagnostics of the relaxation measure
-/

set_option linter.unusedSectionVars false
set_option linter.unusedVariables false

namespace Mrx.Props
open Finset Spec Matrix DeRham

section
variable {ns ps : Nat × Nat × Nat} {q : Nat} {types : String × String × String} {F : V3 → V3} {polar dirichlet : Bool} {D : DeRham}

/-! ## C74 -/

theorem mixed_dot {m m' n n' d nq : Nat} (g g' : Getter) (W : Nat → Matrix (Fin d) (Fin d) ℝ) (E : Matrix (Fin m) (Fin n) ℝ)
    (E' : Matrix (Fin m') (Fin n') ℝ) (u : Fin m → ℝ) (v : Fin m' → ℝ) :
    u ⬝ᵥ (E * assemble g g' nq d W n n' * E'ᵀ) *ᵥ v = ∑ j ∈ range nq, (fun k : Fin d => evaluateAtXq g (Eᵀ *ᵥ u) j k) ⬝ᵥ
      W j *ᵥ (fun k : Fin d => evaluateAtXq g' (E'ᵀ *ᵥ v) j k) := by
  rw [← assemble_dot, ← mulVec_mulVec, ← mulVec_mulVec, transpose_dot]

/-- 1-forms and 2-forms are dual: the Jacobian cancels. -/
theorem phys12 (h : Admissible ns ps q types F polar dirichlet D) (u : Fin D.m1 → ℝ) (v : Fin D.m2 → ℝ) {j : Nat} (hj : j < D.nq) :
    D.phys1 u (D.x j) ⬝ᵥ D.phys2 v (D.x j) = (D.form1 u (D.x j) ⬝ᵥ D.form2 v (D.x j)) / (jacfwd F (D.x j)).det := by
  obtain ⟨eJ, _, _, _, _, eI, hpos⟩ := h.metricAt hj
  have hu : IsUnit (jacfwd F (D.x j)).det := by rw [isUnit_iff_ne_zero]; exact hpos.ne'
  rw [h.phys1_eq u hj, h.phys2_eq v hj, dotProduct_smul, transpose_dot, mulVec_mulVec, ← transpose_mul, nonsing_inv_mul _ hu, transpose_one,
    one_mulVec, smul_eq_mul, one_div, div_eq_inv_mul]

theorem M12_l2 (h : Admissible ns ps q types F polar dirichlet D) (u : Fin D.m1 → ℝ) (v : Fin D.m2 → ℝ) :
    u ⬝ᵥ D.M12 *ᵥ v = l2Product (D.phys1 u) (D.phys2 v) D.S.Q F := by
  rw [h.l2_eq]
  unfold DeRham.M12
  rw [mixed_dot]
  refine Finset.sum_congr rfl fun j hj => ?_
  have hj := mem_range.mp hj
  obtain ⟨eJ, _, _, _, _, _, hpos⟩ := h.metricAt hj
  rw [h.eval1 u hj, h.eval2 v hj, phys12 h u v hj, smul_mulVec, one_mulVec, dotProduct_smul, smul_eq_mul]
  field_simp

theorem P03_l2 (h : Admissible ns ps q types F polar dirichlet D) (u : Fin D.m0 → ℝ) (v : Fin D.m3 → ℝ) :
    u ⬝ᵥ D.M0 *ᵥ (D.P03 *ᵥ v) = l2Product (D.phys0 u) (D.phys3 v) D.S.Q F := by
  have m0 := (C31_mass_matrices_definite h).1
  unfold DeRham.P03 solve
  rw [mulVec_mulVec, ← Matrix.mul_assoc, m0.mul_inv, Matrix.one_mul, h.l2_eq]
  refine (mixed_dot (d := 1) D.S.getLambda0 D.S.getLambda3 (fun j => (fun _ _ => D.w j : Matrix (Fin 1) (Fin 1) ℝ)) D.E0 D.E3 u v).trans ?_
  refine Finset.sum_congr rfl fun j hj => ?_
  have hj := mem_range.mp hj
  obtain ⟨eJ, _, _, _, _, _, hpos⟩ := h.metricAt hj
  rw [h.eval0 u hj, h.eval3 v hj, h.phys0_eq, h.phys3_eq v hj, Admissible.scale_one, dotProduct_smul, smul_eq_mul]
  field_simp

/-- **C74** the reported energy is half the integral of `|B|²`, `norm_2` is the L2 norm and `divergence_norm` the L2 norm of the physical
divergence (integrals in the sense of the quadrature rule). -/
theorem C74_norms (h : Admissible ns ps q types F polar dirichlet D) (B : Fin D.m2 → ℝ) :
    D.energy B = (1 / 2) * l2Product (D.phys2 B) (D.phys2 B) D.S.Q F ∧
    D.norm2 B ^ 2 = l2Product (D.phys2 B) (D.phys2 B) D.S.Q F ∧ 0 ≤ D.norm2 B ∧
    D.divergenceNorm B ^ 2 = l2Product (D.phys3 (D.strongDiv *ᵥ B)) (D.phys3 (D.strongDiv *ᵥ B)) D.S.Q F ∧ 0 ≤ D.divergenceNorm B := by
  obtain ⟨m0, m1, m2, m3⟩ := C31_mass_matrices_definite h
  obtain ⟨_, _, l2, l3⟩ := C31_mass_is_l2_product h
  refine ⟨?_, ?_, Real.sqrt_nonneg _, ?_, Real.sqrt_nonneg _⟩
  · unfold DeRham.energy; rw [l2]; norm_num
  · unfold DeRham.norm2; rw [Real.sq_sqrt (m2.psd.2 B), l2]
  · unfold DeRham.divergenceNorm; rw [Real.sq_sqrt (m3.psd.2 _), l3]

/-- Case: the standard case. -/
example (polar dirichlet : Bool) := C74_norms (Case.adm polar dirichlet)

/-- **C74** they vanish only when they should: the energy and the norm only for the zero field, the divergence norm only for fields whose
discrete divergence is zero. -/
theorem C74_definite (h : Admissible ns ps q types F polar dirichlet D) (B : Fin D.m2 → ℝ) :
    0 ≤ D.energy B ∧ (D.energy B = 0 ↔ B = 0) ∧ (D.norm2 B = 0 ↔ B = 0) ∧ (D.divergenceNorm B = 0 ↔ D.strongDiv *ᵥ B = 0) := by
  obtain ⟨m0, m1, m2, m3⟩ := C31_mass_matrices_definite h
  have z2 : B ⬝ᵥ D.M2 *ᵥ B = 0 ↔ B = 0 := ⟨fun e => m2.eq_zero e, fun e => by rw [e]; simp⟩
  have p2 := m2.psd.2 B
  refine ⟨?_, ?_, ?_, ?_⟩
  · unfold DeRham.energy; positivity
  · unfold DeRham.energy
    rw [← z2]
    constructor
    · intro e; linarith
    · intro e; rw [e, mul_zero]
  · unfold DeRham.norm2; rw [Real.sqrt_eq_zero p2, z2]
  · unfold DeRham.divergenceNorm
    rw [Real.sqrt_eq_zero (m3.psd.2 _)]
    exact ⟨fun e => m3.eq_zero e, fun e => by rw [e]; simp⟩

/-- Case: the standard case. -/
example (polar dirichlet : Bool) := C74_definite (Case.adm polar dirichlet)

/-- **C74** `norm_2` is a norm: homogeneous and subadditive. -/
theorem C74_norm_is_norm (h : Admissible ns ps q types F polar dirichlet D) (A B : Fin D.m2 → ℝ) (c : ℝ) :
    D.norm2 (c • B) = |c| * D.norm2 B ∧ D.norm2 (A + B) ≤ D.norm2 A + D.norm2 B := by
  have m2 := (C31_mass_matrices_definite h).2.2.1
  have pA := m2.psd.2 A
  have pB := m2.psd.2 B
  constructor
  · unfold DeRham.norm2
    rw [mulVec_smul, smul_dotProduct, dotProduct_smul, smul_eq_mul, smul_eq_mul, ← mul_assoc, Real.sqrt_mul (mul_self_nonneg c),
      Real.sqrt_mul_self_eq_abs]
  · have cs : A ⬝ᵥ D.M2 *ᵥ B ≤ D.norm2 A * D.norm2 B := by
      have hq : ∀ t : ℝ, 0 ≤ B ⬝ᵥ D.M2 *ᵥ B * (t * t) + (2 * (A ⬝ᵥ D.M2 *ᵥ B)) * t + A ⬝ᵥ D.M2 *ᵥ A := by
        intro t
        have := m2.psd.2 (A + t • B)
        rw [mulVec_add, mulVec_smul, add_dotProduct, dotProduct_add, dotProduct_add, smul_dotProduct, smul_dotProduct, dotProduct_smul,
          dotProduct_smul, sym_dot m2.1 B A] at this
        simp only [smul_eq_mul] at this
        linarith
      have hd := discrim_le_zero hq
      unfold discrim at hd
      unfold DeRham.norm2
      rw [← Real.sqrt_mul pA]
      refine Real.le_sqrt_of_sq_le ?_
      nlinarith
    have e : D.norm2 (A + B) ^ 2 = D.norm2 A ^ 2 + 2 * (A ⬝ᵥ D.M2 *ᵥ B) + D.norm2 B ^ 2 := by
      unfold DeRham.norm2
      rw [Real.sq_sqrt (m2.psd.2 _), Real.sq_sqrt pA, Real.sq_sqrt pB, mulVec_add, add_dotProduct, dotProduct_add, dotProduct_add,
        sym_dot m2.1 B A]
      ring
    refine le_of_sq_le_sq ?_ (add_nonneg (Real.sqrt_nonneg _) (Real.sqrt_nonneg _))
    rw [e]
    nlinarith

/-- Case: the standard case. -/
example (polar dirichlet : Bool) := C74_norm_is_norm (Case.adm polar dirichlet)

/-- **C74** `P12` and `P03` are the L2 projections from 2- to 1-forms and from densities to scalars: the result has the same integrals
against every 1-form, resp. 0-form. -/
theorem C74_hodge_projections (h : Admissible ns ps q types F polar dirichlet D) :
    (∀ a B, l2Product (D.phys1 a) (D.phys1 (D.P12 *ᵥ B)) D.S.Q F = l2Product (D.phys1 a) (D.phys2 B) D.S.Q F) ∧
    (∀ a ρ, l2Product (D.phys0 a) (D.phys0 (D.P03 *ᵥ ρ)) D.S.Q F = l2Product (D.phys0 a) (D.phys3 ρ) D.S.Q F) := by
  obtain ⟨m0, m1, m2, m3⟩ := C31_mass_matrices_definite h
  obtain ⟨l0, l1, _, _⟩ := C31_mass_is_l2_product h
  refine ⟨fun a B => ?_, fun a ρ => ?_⟩
  · rw [← l1, ← M12_l2 h]
    unfold DeRham.P12 solve
    rw [mulVec_mulVec, ← Matrix.mul_assoc, m1.mul_inv, Matrix.one_mul]
  · rw [← l0, ← P03_l2 h]

/-- Case: the standard case. -/
example (polar dirichlet : Bool) := C74_hodge_projections (Case.adm polar dirichlet)

/-- **C74** the reported helicity is the integral of `A · (B + B_harm)`. -/
theorem C74_helicity_integral (h : Admissible ns ps q types F polar dirichlet D) (B : Fin D.m2 → ℝ) :
    D.helicity B = l2Product (D.phys1 (D.vectorPotential B)) (D.phys2 (B + D.harmonicComponent B)) D.S.Q F := by
  rw [← (C74_hodge_projections h).1, ← (C31_mass_is_l2_product h).2.1]
  rfl

/-- Case: the standard case. -/
example (polar dirichlet : Bool) := C74_helicity_integral (Case.adm polar dirichlet)

/-- **C74** (polar, Dirichlet, at most as many radial as poloidal splines: exactly the cases in which the helicity is defined, see
`C73_laplacians_invertible_iff`) the helicity does not depend on how the potential is found: for every potential `A`
in Coulomb gauge for which `B - curl A` is weakly curl-free, it is the integral of `A · (2 B - curl A)`. -/
theorem C74_helicity_characterised (h : Admissible ns ps q types F true true D) (hs : ns.1 ≤ ns.2.1) (B : Fin D.m2 → ℝ) (A : Fin D.m1 → ℝ) (hA : D.weakDiv *ᵥ A = 0)
    (hB : D.weakCurl *ᵥ (B - D.strongCurl *ᵥ A) = 0) :
    D.helicity B = l2Product (D.phys1 A) (D.phys2 (B + (B - D.strongCurl *ᵥ A))) D.S.Q F := by
  obtain ⟨t1, t2, t3, _⟩ := h.polar rfl
  have v1 := (C73_laplacians_invertible_iff h ⟨t1, by rw [t2]; decide, t3⟩).2.1.mpr ⟨rfl, rfl, hs⟩
  have l1 := (C34_laplacians_are_hodge h).2.1
  have e : D.vectorPotential B = A := by
    have : D.dd1 *ᵥ A = D.weakCurl *ᵥ B := by
      rw [l1, sub_mulVec, ← mulVec_mulVec, ← mulVec_mulVec, hA, mulVec_zero, sub_zero]
      rw [mulVec_sub, sub_eq_zero] at hB
      exact hB.symm
    unfold DeRham.vectorPotential
    rw [← this, mulVec_mulVec, nonsing_inv_mul _ v1, one_mulVec]
  rw [C74_helicity_integral h]
  unfold DeRham.harmonicComponent
  rw [e]

/-- Case: the standard case, any gauge-fixed potential `A` and its curl. -/
example (A : Fin (Case.D true true).m1 → ℝ) (hA : (Case.D true true).weakDiv *ᵥ A = 0) :=
  C74_helicity_characterised (Case.adm true true) (by norm_num) ((Case.D true true).strongCurl *ᵥ A) A hA (by rw [sub_self, mulVec_zero])

/-- **C74** energy and helicity are quadratic in the field. -/
theorem C74_quadratic (D : DeRham) (B : Fin D.m2 → ℝ) (c : ℝ) :
    D.energy (c • B) = c ^ 2 * D.energy B ∧ D.helicity (c • B) = c ^ 2 * D.helicity B := by
  have e : D.vectorPotential (c • B) = c • D.vectorPotential B := by unfold DeRham.vectorPotential; rw [mulVec_smul, mulVec_smul]
  have e' : D.harmonicComponent (c • B) = c • D.harmonicComponent B := by
    unfold DeRham.harmonicComponent; rw [e, mulVec_smul, smul_sub]
  constructor
  · unfold DeRham.energy
    rw [mulVec_smul, smul_dotProduct, dotProduct_smul, smul_eq_mul, smul_eq_mul]; ring
  · unfold DeRham.helicity
    rw [e, e', ← smul_add, mulVec_smul, mulVec_smul, smul_dotProduct, dotProduct_smul, smul_eq_mul, smul_eq_mul]; ring

/-! ## C75 -/

/-- **C75** the Lorentz force used for the pressure is the L2 projection of `J × H`. -/
theorem C75_lorentz_force (h : Admissible ns ps q types F polar dirichlet D) (B v : Fin D.m2 → ℝ) :
    l2Product (D.phys2 v) (D.phys2 (D.lorentz B)) D.S.Q F =
    l2Product (D.phys2 v) (fun y => crossProduct (D.phys1 (D.weakCurl *ᵥ B) y) (D.phys1 (D.P12 *ᵥ B) y)) D.S.Q F := by
  have m2 := (C31_mass_matrices_definite h).2.2.1
  rw [← (C31_mass_is_l2_product h).2.2.1]
  obtain ⟨r, hr, hi⟩ := C38_cross_product_integrals h .two .one .one (by simp) (D.weakCurl *ᵥ B) (D.P12 *ᵥ B)
  have : D.M2 *ᵥ D.lorentz B = r := by
    have hx : D.P1x1to2 (D.weakCurl *ᵥ B) (D.P12 *ᵥ B) = r := by
      unfold DeRham.P1x1to2 DeRham.crossVec
      exact (congrArg (fun e : Except String (Fin D.m2 → ℝ) => match e with
        | .ok r => r
        | .error _ => 0) hr :)
    unfold DeRham.lorentz
    rw [mulVec_mulVec, m2.mul_inv, one_mulVec]
    exact hx
  rw [this]
  exact hi v

/-- Case: the standard case. -/
example (polar dirichlet : Bool) := C75_lorentz_force (Case.adm polar dirichlet)

theorem dd0_l2 (h : Admissible ns ps q types F polar dirichlet D) (a p : Fin D.m0 → ℝ) :
    a ⬝ᵥ D.M0 *ᵥ (D.dd0 *ᵥ p) = l2Product (D.phys1 (D.strongGrad *ᵥ a)) (D.phys1 (D.strongGrad *ᵥ p)) D.S.Q F := by
  obtain ⟨m0, m1, m2, m3⟩ := C31_mass_matrices_definite h
  obtain ⟨d0, d1, d2, w0, w1, w2⟩ := D_eq h
  rw [← (C31_mass_is_l2_product h).2.1, (C34_laplacians_are_hodge h).1, w0, Matrix.neg_mul, neg_neg, Matrix.mul_assoc,
    mulVec_mulVec, ← Matrix.mul_assoc, m0.mul_inv, Matrix.one_mul, d0, transpose_mul, m1.1, Matrix.mul_assoc, ← mulVec_mulVec,
    ← mulVec_dot, mulVec_mulVec]

/-- **C75** with Dirichlet conditions (and on polar domains at most as many radial as poloidal splines; in all other cases the equation is singular,
`C75_pressure_wellposed_iff`) the pressure is the one and only solution of the weak Poisson problem
`(∇a, ∇p) = -(a, div (J × H))` for all test functions `a`. -/
theorem C75_pressure_poisson (h : Admissible ns ps q types F polar dirichlet D) (ty : Toroidal types)
    (hd : dirichlet = true) (hs : polar = true → ns.1 ≤ ns.2.1) (B : Fin D.m2 → ℝ) (p : Fin D.m0 → ℝ) :
    p = D.pressure B ↔ ∀ a, l2Product (D.phys1 (D.strongGrad *ᵥ a)) (D.phys1 (D.strongGrad *ᵥ p)) D.S.Q F =
      -l2Product (D.phys0 a) (D.phys3 (D.strongDiv *ᵥ D.lorentz B)) D.S.Q F := by
  have v0 := (C73_laplacians_invertible_iff h ty).1.mpr ⟨hd, hs⟩
  have m0 := (C31_mass_matrices_definite h).1
  have key : p = D.pressure B ↔ D.M0 *ᵥ (D.dd0 *ᵥ p) = -(D.M0 *ᵥ (D.P03 *ᵥ (D.strongDiv *ᵥ D.lorentz B))) := by
    constructor
    · rintro rfl
      unfold DeRham.pressure
      rw [mulVec_neg, mulVec_neg, mulVec_mulVec _ D.dd0, mul_nonsing_inv _ v0, one_mulVec]
    · intro e
      have := congrArg (fun v => D.dd0⁻¹ *ᵥ (D.M0⁻¹ *ᵥ v)) e
      simp only [mulVec_neg] at this
      rw [mulVec_mulVec _ D.M0⁻¹, m0.inv_mul, one_mulVec, mulVec_mulVec _ D.dd0⁻¹ D.dd0, nonsing_inv_mul _ v0, one_mulVec,
        mulVec_mulVec _ D.M0⁻¹ D.M0, m0.inv_mul, one_mulVec] at this
      rw [this]; rfl
  rw [key]
  constructor
  · intro e a
    rw [← dd0_l2 h, e, dotProduct_neg, P03_l2 h]
  · intro e
    refine dot_ext fun a => ?_
    rw [dd0_l2 h, e a, dotProduct_neg, P03_l2 h]

/-- Case: the standard case. -/
example (polar : Bool) := C75_pressure_poisson (Case.adm polar true) ⟨rfl, by decide, by decide⟩ rfl (fun _ => by norm_num)

/-- **C75** exactly when the pressure equation has a unique solution. -/
theorem C75_pressure_wellposed_iff (h : Admissible ns ps q types F polar dirichlet D) (ty : Toroidal types) :
    (∀ b, ∃! p, D.dd0 *ᵥ p = b) ↔ dirichlet = true ∧ (polar = true → ns.1 ≤ ns.2.1) := by
  rw [← (C73_laplacians_invertible_iff h ty).1]
  constructor
  · intro hh
    rw [← isUnit_iff_isUnit_det, ← Matrix.mulVec_injective_iff_isUnit]
    intro x y e
    obtain ⟨p, _, hp⟩ := hh (D.dd0 *ᵥ y)
    rw [hp x e, hp y rfl]
  · intro hu b
    refine ⟨D.dd0⁻¹ *ᵥ b, ?_, fun p hp => ?_⟩
    · beta_reduce; rw [mulVec_mulVec, mul_nonsing_inv _ hu, one_mulVec]
    · beta_reduce at hp; rw [← hp, mulVec_mulVec, nonsing_inv_mul _ hu, one_mulVec]

/-- Case: the standard case. -/
example (polar dirichlet : Bool) := C75_pressure_wellposed_iff (Case.adm polar dirichlet) ⟨rfl, by decide, by decide⟩

/-- **C75** (in the same cases) there is no pressure exactly if the divergence of the Lorentz force is orthogonal to the scalar test functions, in
particular if it vanishes. -/
theorem C75_pressure_zero_iff (h : Admissible ns ps q types F polar dirichlet D) (ty : Toroidal types)
    (hd : dirichlet = true) (hs : polar = true → ns.1 ≤ ns.2.1) (B : Fin D.m2 → ℝ) :
    (D.pressure B = 0 ↔ ∀ a, l2Product (D.phys0 a) (D.phys3 (D.strongDiv *ᵥ D.lorentz B)) D.S.Q F = 0) ∧
    (D.strongDiv *ᵥ D.lorentz B = 0 → D.pressure B = 0) := by
  refine ⟨?_, fun hB => ?_⟩
  · rw [eq_comm, C75_pressure_poisson h ty hd hs B 0]
    refine forall_congr' fun a => ?_
    rw [← h.M1_l2, mulVec_zero, mulVec_zero, dotProduct_zero]
    constructor <;> intro e <;> linarith
  · unfold DeRham.pressure
    rw [hB, mulVec_zero, mulVec_zero, neg_zero]

/-- Case: the standard case. -/
example (polar : Bool) := C75_pressure_zero_iff (Case.adm polar true) ⟨rfl, by decide, by decide⟩ rfl (fun _ => by norm_num)

/-- **C75** as documented there is no condition on the sequence. -/
def C75_wellposed_statement : Prop :=
  ∀ (ns ps : Nat × Nat × Nat) (q : Nat) (types : String × String × String) (F : V3 → V3) (polar dirichlet : Bool) (D : DeRham),
    Admissible ns ps q types F polar dirichlet D → Compatible ns types dirichlet → IsUnit D.dd0.det

/-- **C75** (finding) without Dirichlet conditions the matrix of the pressure equation is singular: constants are in its kernel. -/
theorem C75_wellposed_false : ¬ C75_wellposed_statement := by
  intro H
  obtain ⟨D, h⟩ := Admissible.exists (ns := (5, 5, 4)) (ps := (3, 2, 1)) (q := 4) (types := ("clamped", "periodic", "periodic"))
    (fun y => y) true false (by norm_num) (by unfold DirOK; norm_num) (by unfold DirOK; norm_num) (by unfold DirOK; norm_num)
    (by simp) fun x => by rw [jacobianDeterminant_id]; norm_num
  have hc : Compatible (5, 5, 4) ("clamped", "periodic", "periodic") false := by constructor <;> simp
  have := (C73_laplacians_invertible_iff h ⟨rfl, by decide, by decide⟩).1.mp (H _ _ _ _ _ _ _ _ h hc)
  simp at this

/-- `lmbda` at a quadrature point. -/
theorem lmbda_eq (h : Admissible ns ps q types F polar dirichlet D) (B : Fin D.m2 → ℝ) {j : Nat} (hj : j < D.nq) :
    D.lmbda B (D.x j) 0 = (D.phys1 (D.weakCurl *ᵥ B) (D.x j) ⬝ᵥ D.phys2 B (D.x j)) / (D.phys2 B (D.x j) ⬝ᵥ D.phys2 B (D.x j)) := by
  obtain ⟨eJ, _, _, _, _, eI, hpos⟩ := h.metricAt hj
  rw [phys12 h _ _ hj, h.phys2_eq B hj]
  unfold DeRham.lmbda
  rw [(Admissible.metric h.built).2, smul_dotProduct, dotProduct_smul, smul_eq_mul, smul_eq_mul]
  field_simp

theorem form2_zero_iff (h : Admissible ns ps q types F polar dirichlet D) (B : Fin D.m2 → ℝ) {j : Nat} (hj : j < D.nq) :
    (jacfwd F (D.x j) *ᵥ D.form2 B (D.x j)) ⬝ᵥ jacfwd F (D.x j) *ᵥ D.form2 B (D.x j) = 0 ↔ D.phys2 B (D.x j) = 0 := by
  obtain ⟨eJ, _, _, _, _, eI, hpos⟩ := h.metricAt hj
  rw [dotProduct_self_eq_zero, h.phys2_eq B hj, smul_eq_zero]
  simp [hpos.ne']

/-- **C75** in the force-free mode the result is the L2 projection of `J · B / |B|²` whenever the field vanishes at no quadrature
point. -/
theorem C75_force_free_projection (h : Admissible ns ps q types F polar dirichlet D) (B : Fin D.m2 → ℝ)
    (hB : ∀ j < D.nq, D.phys2 B (D.x j) ≠ 0) :
    ∃ p, D.pressureForceFree B = some p ∧ ∀ a, l2Product (D.phys0 a) (D.phys0 p) D.S.Q F = l2Product (D.phys0 a)
      (fun y _ => (D.phys1 (D.weakCurl *ᵥ B) y ⬝ᵥ D.phys2 B y) / (D.phys2 B y ⬝ᵥ D.phys2 B y)) D.S.Q F := by
  have m0 := (C31_mass_matrices_definite h).1
  have hF : D.F = F := (Admissible.metric h.built).2
  refine ⟨D.M0⁻¹ *ᵥ D.projector0 (D.lmbda B), ?_, ?_⟩
  · unfold DeRham.pressureForceFree
    rw [hF, if_neg]
    rintro ⟨j, hj, e⟩
    exact hB j hj ((form2_zero_iff h B hj).mp e)
  intro a
  rw [← (C31_mass_is_l2_product h).1, mulVec_mulVec, m0.mul_inv, one_mulVec, h.proj0_l2, h.l2_eq, h.l2_eq]
  refine Finset.sum_congr rfl fun j hj => ?_
  have hj := mem_range.mp hj
  congr 2
  funext i
  rw [Subsingleton.elim i 0]
  exact lmbda_eq h B hj

/-- non-vacuity: on a rod (clamped radius, constant in the angles) the radial field `(1, 0, 0)` plus others vanishes at no quadrature
point. -/
theorem radial_field : ∃ D, Admissible (5, 1, 1) (3, 0, 0) 4 ("clamped", "constant", "constant") (fun y => y) false false D ∧ 1 < D.S.Q.xx.length ∧
    ∃ B : Fin D.m2 → ℝ, ∀ j < D.nq, D.phys2 B (D.x j) ≠ 0 := by
  obtain ⟨D, h⟩ := Admissible.exists (ns := (5, 1, 1)) (ps := (3, 0, 0)) (q := 4) (types := ("clamped", "constant", "constant"))
    (fun y => y) false false (by norm_num) (by unfold DirOK; norm_num) (by unfold DirOK; norm_num) (by unfold DirOK; norm_num)
    (by simp) fun x => by rw [jacobianDeterminant_id]; norm_num
  have hw := h.quad.wf
  obtain ⟨m0, _, _, _, hQ⟩ := Seq.mk?_inv (Admissible.seq h.built)
  obtain ⟨_, hd, s0, s1, s2, d0, d1, d2⟩ := Form.mk?_inv m0
  have hd2 := (Seq.nr_eq hw).2.1
  -- the radial points
  obtain ⟨xs, ws, e1, e2, l1, l2, hin, _⟩ := Props.C11_select_rule 5 3 (by norm_num) "clamped" 2 (Or.inl ⟨rfl, by norm_num, rfl⟩) D.S.L0.Λ0 s0 4
    (by norm_num) (by norm_num)
  have hxx : D.S.Q.xx = xs := by
    unfold Quad.Rule.mk? at hQ
    split at hQ
    case h_2 => cases hQ
    rename_i rx ry rz hx hy hz'
    have hQ' := Except.ok.inj hQ
    rw [e1] at hx
    obtain rfl := Except.ok.inj hx
    rw [← hQ']; rfl
  have const : ∀ {s : SplineBasis ℝ} {d : DerivativeSpline ℝ}, SplineBasis.mk? 1 0 "constant" = .ok s → DerivativeSpline.mk? s = .ok d →
      ∀ y i, d.evaluate y i = 1 := by
    intro s d hs hd y i
    have hty : s.type = "constant" := (Form.spline_mk?_ok hs).2.2
    have hdt : d.type = "constant" := by
      unfold DerivativeSpline.mk? at hd
      rw [if_neg (by simp [hty])] at hd
      split at hd
      · cases hd
      · cases hd; exact hty
    unfold DerivativeSpline.evaluate; simp [hdt]
  -- all coefficients one
  have hE : ∃ B : Fin D.m2 → ℝ, D.E2ᵀ *ᵥ B = fun _ => 1 := by
    obtain ⟨S, hS, ⟨hp, _⟩ | ⟨_, rfl⟩⟩ := Admissible.cases' h.built
    · cases hp
    · refine ⟨(BoundaryOp.mk S.L2.dims (bcTypes false)).matrix *ᵥ fun _ => 1, ?_⟩
      funext c
      refine (C26_projection (BoundaryOp.mk S.L2.dims (bcTypes false)) ?_ (fun _ => 1) c).1 ?_
      · have : S.L2.dims.k = 2 := by
          have := hd2
          change S.L2.dims = _ at this
          rw [this]
        right; right; left; exact this
      · simp [Kept, Keeps1, bcTypes, LeftConstrained, RightConstrained]
  obtain ⟨B, hB⟩ := hE
  refine ⟨D, h, ?_, B, fun j hj hz => ?_⟩
  · rw [hxx, l1]; norm_num
  · obtain ⟨_, _, _, _, einv, _, hpos⟩ := h.metricAt hj
    rw [h.phys2_eq B hj, smul_eq_zero] at hz
    have hz := hz.resolve_left (one_div_ne_zero hpos.ne')
    have hz := congrArg (fun v => (jacfwd (fun y => y) (D.x j))⁻¹ *ᵥ v) hz
    simp only [mulVec_mulVec, einv, one_mulVec, mulVec_zero] at hz
    have hz := congrFun hz 0
    rw [← h.eval2 B hj, hB] at hz
    have hjq : j < D.S.nq := by rw [← h.quad.len]; exact hj
    obtain ⟨u1, u2, u3, _⟩ := Seq.unravelQuad_spec D.S hjq
    have hz : evaluateAtXq D.S.getLambda2 (fun _ => 1) j 0 = 0 := hz
    rw [Seq.field2 hw _ j 0 (by norm_num)] at hz
    have hxm : D.S.Q.xx.getD (D.S.unravelQuad j).1 0 ∈ xs := by
      rw [hxx]; rw [hxx] at u1
      rw [List.getD_eq_getElem?_getD, List.getElem?_eq_getElem u1]
      exact List.getElem_mem u1
    have pu := C01_clamped_partition_of_unity 5 3 (by norm_num) (by norm_num) D.S.L0.Λ0 s0 (D.S.Q.xx.getD (D.S.unravelQuad j).1 0)
      (hin _ hxm).1.le (hin _ hxm).2.le
    have hsh : (D.S.L2.dims.cshape 0) = (5, 1, 1) := by
      rw [hd2, hd]; simp [Dims.cshape, Dims.shape, Form.dsize]
    unfold Seq.compVal at hz
    rw [hsh] at hz
    have hk : D.S.L2.dims.k = 2 := by rw [hd2]
    have c1 : ∀ i < 5, coef D.S.L2.dims (fun _ => (1 : ℝ)) 0 i 0 0 = 1 := by
      intro i hi
      unfold coef
      rw [dif_pos]
      exact (Dims.ravelIndex_lt _ hw.f2.k ⟨by rw [hsh]; exact hi, by rw [hsh]; norm_num, by rw [hsh]; norm_num⟩)
    have hdt : D.S.L0.dims.dt = 1 := by rw [hd]; simp [Form.dsize]
    have hdz : D.S.L0.dims.dz = 1 := by rw [hd]; simp [Form.dsize]
    have hnr : D.S.L0.dims.nr = 5 := by rw [hd]
    rw [hk] at hz
    have t1 : D.S.tT (isDeriv 2 0 1) j 0 = 1 := by
      unfold Seq.tT
      rw [show (isDeriv 2 0 1) = true by rfl, if_pos rfl, Seq.dlamT_get hw (by rw [hdt]; norm_num) u2, const s1 d1]
    have t2 : D.S.tZ (isDeriv 2 0 2) j 0 = 1 := by
      unfold Seq.tZ
      rw [show (isDeriv 2 0 2) = true by rfl, if_pos rfl, Seq.dlamZ_get hw (by rw [hdz]; norm_num) u3, const s2 d2]
    have t0 : ∀ i < 5, D.S.tR (isDeriv 2 0 0) j i = D.S.L0.Λ0.evaluate (D.S.Q.xx.getD (D.S.unravelQuad j).1 0) i := by
      intro i hi
      unfold Seq.tR
      rw [show (isDeriv 2 0 0) = false by rfl, if_neg (by simp), Seq.lamR_get hw (by rw [hnr]; exact hi) u1]
    unfold T3 at hz
    simp only [Finset.sum_range_one, t1, t2, mul_one] at hz
    rw [Finset.sum_congr rfl (fun i hi => by rw [c1 i (mem_range.mp hi), t0 i (mem_range.mp hi), one_mul]), pu] at hz
    exact one_ne_zero hz

/-- **C75** as documented the force-free pressure is defined for every field. -/
def C75_force_free_statement : Prop :=
  ∀ (ns ps : Nat × Nat × Nat) (q : Nat) (types : String × String × String) (F : V3 → V3) (polar dirichlet : Bool) (D : DeRham),
    Admissible ns ps q types F polar dirichlet D → ∀ B, ∃ p, D.pressureForceFree B = some p

/-- **C75** (finding) a field with a null at a single quadrature point makes the whole result NaN. -/
theorem C75_force_free_nan (h : Admissible ns ps q types F polar dirichlet D) (B : Fin D.m2 → ℝ) :
    D.pressureForceFree B = none ↔ ∃ j < D.nq, D.phys2 B (D.x j) = 0 := by
  have hF : D.F = F := (Admissible.metric h.built).2
  unfold DeRham.pressureForceFree
  rw [hF]
  split_ifs with hc
  · simp only [true_iff]
    obtain ⟨j, hj, e⟩ := hc
    exact ⟨j, hj, (form2_zero_iff h B hj).mp e⟩
  · simp only [reduceCtorEq, false_iff]
    rintro ⟨j, hj, e⟩
    exact hc ⟨j, hj, (form2_zero_iff h B hj).mpr e⟩

/-- Case: the standard case; the zero field gives NaN, and exactly the fields that vanish at no point give a pressure. -/
example (polar dirichlet : Bool) := C75_force_free_nan (Case.adm polar dirichlet) 0

/-- **C75** (finding) so it is not defined for every field. -/
theorem C75_force_free_false : ¬ C75_force_free_statement := by
  intro H
  obtain ⟨D, h⟩ := Admissible.example true true
  obtain ⟨p, hp⟩ := H _ _ _ _ _ _ _ _ h 0
  have hq : 0 < D.nq := by
    by_contra hn
    have m3 := (C31_mass_matrices_definite h).2.2.2
    have b := (closed_dims_all h ⟨rfl, by decide, by decide⟩).2.2.2
    have hm : 0 < D.m3 := by
      have e : (codeBetti true true 5 6).2.2.2 = 1 := by decide
      have b' : D.m3 = D.strongDiv.rank + 1 := b.trans (congrArg (D.strongDiv.rank + ·) e)
      omega
    have hx : (fun _ : Fin D.m3 => (1 : ℝ)) ≠ 0 := fun e => one_ne_zero (congrFun e ⟨0, hm⟩)
    have := m3.2 _ hx
    rw [h.M3_l2, h.l2_eq, show D.nq = 0 by omega] at this
    simp at this
  have := (C75_force_free_nan h 0).mpr ⟨0, hq, by
    rw [h.phys2_eq 0 hq]
    have : D.form2 0 (D.x 0) = 0 := by
      funext k
      have := congrFun (discrete_sum D.S.L2 D.E2 0 k) (fromV3 (D.x 0))
      simpa [DeRham.form2] using this
    rw [this, mulVec_zero, smul_zero]⟩
  rw [hp] at this
  cases this

/-- non-vacuity (of the hypotheses on the sequence). -/
example : ∃ D, Admissible (5, 6, 4) (3, 2, 1) 4 ("clamped", "periodic", "periodic") (fun y => y) true true D ∧
    Compatible (5, 6, 4) ("clamped", "periodic", "periodic") true := by
  obtain ⟨D, h⟩ := Admissible.example true true
  exact ⟨D, h, by constructor <;> simp⟩

end
end Mrx.Props
