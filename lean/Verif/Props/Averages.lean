import Verif.Props.Constants
import Verif.Props.Diagnostics
import Verif.Props.Reproduce
import Verif.Props.SinglePlot
import Verif.Props.Traces
import Mathlib.Data.List.GetD

/-!
# C121 Integrals, averages and lumped masses

What a user does with the vector of ones: `ones @ M0 @ u` is the integral of `u`, row sums of `M0` are the masses of the lumped matrix, and without Dirichlet conditions integrals are conserved.
-/

set_option linter.unusedSectionVars false
set_option linter.unusedVariables false

namespace Mrx.Props
open Finset Spec Matrix DeRham

variable {ns ps : Nat × Nat × Nat} {q : Nat} {types : String × String × String} {F : V3 → V3} {polar dirichlet : Bool} {D : DeRham}

/-! ## Specification -/

/-- The integral of a scalar function over the domain, with the quadrature points and weights of the sequence. -/
noncomputable def integral (D : DeRham) (F : V3 → V3) (g : V3 → Fin 1 → ℝ) : ℝ := ∑ j ∈ range D.nq, g (D.x j) 0 * ((jacfwd F (D.x j)).det * D.w j)

/-- The lumped mass of a degree of freedom: its row sum. -/
noncomputable def lumped (D : DeRham) (a : Fin D.m0) : ℝ := ∑ b, D.M0 a b

/-! ## Helpers -/

theorem integral_eq (h : Admissible ns ps q types F polar dirichlet D) (g : V3 → Fin 1 → ℝ) : integral D F g = l2Product (fun _ _ => 1) g D.S.Q F := by
  rw [h.l2_eq]
  unfold integral
  refine sum_congr rfl fun j _ => ?_
  simp [dotProduct]

theorem quad_mem (h : Admissible ns ps q types F polar dirichlet D) {j : Nat} (hj : j < D.nq) : ∃ x, InCube x ∧ D.x j = toV3 x := by
  refine ⟨D.S.Q.x.getD j 0, points_in_cube h _ ?_, rfl⟩
  rw [← h.points_len] at hj
  rw [List.getD_eq_getElem _ _ hj]
  exact List.getElem_mem _

theorem weight_pos (h : Admissible ns ps q types F polar dirichlet D) {j : Nat} (hj : j < D.nq) : 0 < (jacfwd F (D.x j)).det * D.w j := by
  obtain ⟨-, -, -, -, -, -, hp⟩ := h.metricAt hj
  exact mul_pos hp (w_pos h.core hj)

theorem boundary_row_sum (B : BoundaryOp) (hk : B.Λ.k = 0 ∨ B.Λ.k = 1 ∨ B.Λ.k = 2 ∨ B.Λ.k = 3) : B.matrix *ᵥ (fun _ => (1 : ℝ)) = fun _ => 1 := by
  have idem : ∀ a i, B.matrix a i * B.matrix a i = B.matrix a i := fun a i => by
    show ((B.element a i : Int) : ℝ) * ((B.element a i : Int) : ℝ) = ((B.element a i : Int) : ℝ)
    rw [← Int.cast_mul, Int.cast_inj]
    unfold BoundaryOp.element
    simp only
    split_ifs <;> norm_num
  funext a
  have e := congrFun (congrFun (C26_orthonormal_rows B hk) a) a
  rw [Matrix.mul_apply, Matrix.one_apply_eq] at e
  refine Eq.trans ?_ e
  simp only [mulVec, dotProduct, mul_one, transpose_apply]
  exact sum_congr rfl fun i _ => (idem a i).symm

/-- **C121** without Dirichlet conditions, polar or not, the vector with all entries `k` is the constant function `k`, everywhere. -/
theorem C121_constants (h : Admissible ns ps q types F polar false D) (k : ℝ) (x : ℝ × ℝ × ℝ) (hx : InCube x) : D.phys0 (fun _ => k) (toV3 x) 0 = k := by
  have one : discreteFunction D.S.L0 (fun _ => 1) D.E0 x 0 = 1 := by
    obtain ⟨m0, _, _, _, hQ⟩ := Seq.mk?_inv (Admissible.seq h.built)
    obtain ⟨S, hS, ⟨hp, rfl⟩ | ⟨hp, rfl⟩⟩ := Admissible.cases' h.built
    · obtain ⟨tr, tt, tz, nr, nt⟩ := h.polar hp
      have hty : types = ("clamped", "periodic", types.2.2) := by rw [← tr, ← tt]
      have hs : PolarSetting 0 ns ps types.2.2 S.L0 := ⟨by rw [← hty]; exact m0, nr, Or.inl rfl⟩
      have hr : ps.1 < ns.1 ∧ ns.1 - ps.1 ≤ 99900 := by
        rcases h.r with ⟨_, _, b, c, _⟩ | ⟨e, _⟩ | ⟨e, _⟩
        · exact ⟨b, c⟩
        · rw [tr] at e; exact absurd e (by decide)
        · rw [tr] at e; exact absurd e (by decide)
      exact C28_partition_of_unity ns ps types.2.2 S.L0 hs hr.1 hr.2 (tt ▸ DirOK.unity h.t) (DirOK.unity h.z) x hx.1 hx.2.1 hx.2.2
    · have hd := h.dims0
      have e : S.L0.dims = ⟨0, ns.1, ns.2.1, ns.2.2, S.L0.dims.dr, S.L0.dims.dt, S.L0.dims.dz⟩ := by
        rw [show S.L0.dims = _ from hd]
      have hk : S.L0.dims.k = 0 ∨ S.L0.dims.k = 1 ∨ S.L0.dims.k = 2 ∨ S.L0.dims.k = 3 := by rw [e]; simp
      refine ones_value h _ (fun i j l hi hj hl => ?_) x hx.1 hx.2.1 hx.2.2
      have c1 : coef S.L0.dims (fun _ => 1) 0 i j l = 1 := by
        unfold coef
        rw [dif_pos]
        apply Dims.ravelIndex_lt
        · rw [e]; exact Or.inl rfl
        · rw [e]; exact ⟨hi, hj, hl⟩
      refine Eq.trans ?_ c1
      show coef S.L0.dims ((BoundaryOp.mk S.L0.dims (bcTypes false)).matrixᵀ *ᵥ fun _ => 1) 0 i j l = _
      rw [← boundary_row_sum (BoundaryOp.mk S.L0.dims (bcTypes false)) hk]
      congr 1
      funext c
      refine (C26_projection (BoundaryOp.mk S.L0.dims (bcTypes false)) hk (fun _ => 1) c).1 ?_
      unfold Kept
      simp [bcTypes, Keeps1, LeftConstrained, RightConstrained]
  rw [h.phys0_eq]
  show discreteFunction D.S.L0 (fun _ => k) D.E0 (DeRham.fromV3 (toV3 x)) 0 = k
  rw [fromV3_toV3]
  have e : (fun _ => k : Fin D.m0 → ℝ) = k • fun _ => (1 : ℝ) := by funext _; simp
  rw [e]
  unfold discreteFunction at one ⊢
  rw [smul_vecMul, smul_dotProduct, one]
  simp

theorem ones_dot (h : Admissible ns ps q types F polar false D) (g : V3 → Fin 1 → ℝ) :
    l2Product (D.phys0 fun _ => 1) g D.S.Q F = integral D F g := by
  rw [integral_eq h, h.l2_eq, h.l2_eq]
  refine sum_congr rfl fun j hj => ?_
  obtain ⟨x, hx, e⟩ := quad_mem h (mem_range.mp hj)
  have := C121_constants h 1 x hx
  simp only [dotProduct, univ_unique, sum_singleton]
  rw [e]
  simp only [Fin.default_eq_zero, this]

/-- **C121** without Dirichlet conditions: `ones @ M0 @ u` is the integral of the function `u`, `ones @ projector(f)` that of `f`; `ones @ M0 @ ones` is the volume, which is positive. -/
theorem C121_integrals (h : Admissible ns ps q types F polar false D) :
    (∀ u, (fun _ => 1) ⬝ᵥ D.M0 *ᵥ u = integral D F (D.phys0 u)) ∧ (∀ f, (fun _ => 1) ⬝ᵥ D.projector0 f = integral D F f) ∧
    (fun _ => 1) ⬝ᵥ D.M0 *ᵥ (fun _ => 1) = integral D F (fun _ _ => 1) ∧ 0 < integral D F (fun _ _ => 1) := by
  have a : ∀ u, (fun _ => 1) ⬝ᵥ D.M0 *ᵥ u = integral D F (D.phys0 u) := fun u => by rw [h.M0_l2, ones_dot h]
  refine ⟨a, fun f => by rw [h.proj0_l2, ones_dot h], ?_, ?_⟩
  · rw [a]
    unfold integral
    refine sum_congr rfl fun j hj => ?_
    obtain ⟨x, hx, e⟩ := quad_mem h (mem_range.mp hj)
    rw [e, C121_constants h 1 x hx]
  · unfold integral
    refine sum_pos (fun j hj => ?_) ⟨0, mem_range.mpr (nq_pos' h)⟩
    rw [one_mul]
    exact weight_pos h (mem_range.mp hj)

/-- **C121** without Dirichlet conditions the L2 projection keeps the integral, and so does the projection `P03` of densities to functions. -/
theorem C121_projection_conserves (h : Admissible ns ps q types F polar false D) :
    (∀ f, integral D F (D.phys0 (D.M0⁻¹ *ᵥ D.projector0 f)) = integral D F f) ∧ (∀ ρ, integral D F (D.phys0 (D.P03 *ᵥ ρ)) = integral D F (D.phys3 ρ)) := by
  obtain ⟨m0, -, -, -⟩ := C31_mass_matrices_definite h
  refine ⟨fun f => ?_, fun ρ => ?_⟩
  · rw [← (C121_integrals h).1, ← (C121_integrals h).2.1, mulVec_mulVec, Matrix.mul_nonsing_inv _ (SPD.det m0), one_mulVec]
  · rw [← ones_dot h, ← ones_dot h]
    exact (C74_hodge_projections h).2 _ ρ

/-- **C121** in every sequence the projection of the constant 1 has at most the volume as its integral; what is missing is the squared distance between both. So with Dirichlet conditions integrals
are lost, unless the projection is 1 at every quadrature point. -/
theorem C121_projection_loss (h : Admissible ns ps q types F polar dirichlet D) :
    integral D F (fun _ _ => 1) - integral D F (D.phys0 (D.M0⁻¹ *ᵥ D.projector0 fun _ _ => 1)) =
      integral D F (fun x _ => (1 - D.phys0 (D.M0⁻¹ *ᵥ D.projector0 fun _ _ => 1) x 0) ^ 2) ∧
    integral D F (D.phys0 (D.M0⁻¹ *ᵥ D.projector0 fun _ _ => 1)) ≤ integral D F (fun _ _ => 1) ∧
    (integral D F (D.phys0 (D.M0⁻¹ *ᵥ D.projector0 fun _ _ => 1)) = integral D F (fun _ _ => 1) ↔
      ∀ x ∈ D.S.Q.x, D.phys0 (D.M0⁻¹ *ᵥ D.projector0 fun _ _ => 1) (toV3 x) 0 = 1) := by
  obtain ⟨m0, -, -, -⟩ := C31_mass_matrices_definite h
  obtain ⟨u, hu⟩ : ∃ u, u = D.M0⁻¹ *ᵥ D.projector0 fun _ _ => 1 := ⟨_, rfl⟩
  rw [← hu]
  have mu : D.M0 *ᵥ u = D.projector0 fun _ _ => 1 := by
    rw [hu, mulVec_mulVec, Matrix.mul_nonsing_inv _ (SPD.det m0), one_mulVec]
  have sq : ∑ j ∈ range D.nq, D.phys0 u (D.x j) 0 * D.phys0 u (D.x j) 0 * ((jacfwd F (D.x j)).det * D.w j) =
      ∑ j ∈ range D.nq, D.phys0 u (D.x j) 0 * ((jacfwd F (D.x j)).det * D.w j) := by
    have a := h.M0_l2 u u
    have b := h.proj0_l2 u fun _ _ => 1
    rw [mu, b, h.l2_eq, h.l2_eq] at a
    simpa [dotProduct] using a.symm
  have key : integral D F (fun _ _ => 1) - integral D F (D.phys0 u) = integral D F (fun x _ => (1 - D.phys0 u x 0) ^ 2) := by
    unfold integral
    have e : ∀ j, (1 - D.phys0 u (D.x j) 0) ^ 2 * ((jacfwd F (D.x j)).det * D.w j) = 1 * ((jacfwd F (D.x j)).det * D.w j)
        - 2 * (D.phys0 u (D.x j) 0 * ((jacfwd F (D.x j)).det * D.w j)) + D.phys0 u (D.x j) 0 * D.phys0 u (D.x j) 0 * ((jacfwd F (D.x j)).det * D.w j) := fun j => by ring
    simp only [e]
    simp only [sum_add_distrib, sum_sub_distrib, sq, ← mul_sum]
    linarith
  have nn : ∀ j ∈ range D.nq, 0 ≤ (1 - D.phys0 u (D.x j) 0) ^ 2 * ((jacfwd F (D.x j)).det * D.w j) := fun j hj =>
    mul_nonneg (sq_nonneg _) (weight_pos h (mem_range.mp hj)).le
  have pos : 0 ≤ integral D F (fun x _ => (1 - D.phys0 u x 0) ^ 2) := sum_nonneg nn
  refine ⟨key, by linarith, ?_⟩
  have z : integral D F (D.phys0 u) = integral D F (fun _ _ => 1) ↔ integral D F (fun x _ => (1 - D.phys0 u x 0) ^ 2) = 0 := by
    constructor <;> intro _ <;> linarith
  rw [z]
  unfold integral
  rw [sum_eq_zero_iff_of_nonneg nn]
  constructor
  · intro H x hx
    obtain ⟨j, hj, rfl⟩ := List.getElem_of_mem hx
    have hj' : j < D.nq := by rw [← h.points_len]; exact hj
    have := H j (mem_range.mpr hj')
    rcases mul_eq_zero.mp this with h1 | h1
    · have h2 : D.phys0 u (D.x j) 0 = 1 := by
        have := pow_eq_zero_iff (two_ne_zero) |>.mp h1
        linarith
      rw [← h2]
      unfold DeRham.x
      rw [List.getD_eq_getElem _ _ hj]
    · exact absurd h1 (weight_pos h hj').ne'
  · intro H j hj
    have hj' := mem_range.mp hj
    have hl : j < D.S.Q.x.length := by rw [h.points_len]; exact hj'
    have : D.phys0 u (D.x j) 0 = 1 := by
      have := H _ (List.getElem_mem hl)
      unfold DeRham.x
      rw [List.getD_eq_getElem _ _ hl]
      exact this
    rw [this]
    simp

theorem basis_nonneg (h : Admissible ns ps q types F polar dirichlet D) (u : Fin D.m0 → ℝ) (hu : ∀ a, 0 ≤ u a) (x : ℝ × ℝ × ℝ) (hx : InCube x) : 0 ≤ D.phys0 u (toV3 x) 0 := by
  obtain ⟨m0, _, _, _, hQ⟩ := Seq.mk?_inv (Admissible.seq h.built)
  have ub : UnityBases ns ps types := ⟨DirOK.unity h.r, DirOK.unity h.t, DirOK.unity h.z⟩
  rw [h.phys0_eq]
  show 0 ≤ discreteFunction D.S.L0 u D.E0 (DeRham.fromV3 (toV3 x)) 0
  rw [fromV3_toV3]
  obtain ⟨S, hS, ⟨hp, rfl⟩ | ⟨hp, rfl⟩⟩ := Admissible.cases' h.built
  · exact C88_polar_zeroform_nonneg ns ps types S.L0 m0 ub dirichlet u hu x hx
  · exact C88_boundary_zeroform_nonneg ns ps types S.L0 m0 ub (BoundaryOp.mk S.L0.dims (bcTypes dirichlet)) rfl _ (fun a i => rfl) u hu x hx

theorem M0_entry (D : DeRham) (a b : Fin D.m0) : D.M0 a b = Pi.single a 1 ⬝ᵥ D.M0 *ᵥ Pi.single b 1 := by simp

/-- A field of a sequence that is 1 at the quadrature points has the coefficients of the constant function. -/
theorem one_coefficients (h : Admissible ns ps q types F polar dirichlet D) (u : Fin D.m0 → ℝ) (hu : ∀ x ∈ D.S.Q.x, D.phys0 u (toV3 x) 0 = 1) :
    ∀ i j l, i < ns.1 → j < ns.2.1 → l < ns.2.2 → coef D.S.L0.dims (D.E0ᵀ *ᵥ u) 0 i j l = 1 := by
  obtain ⟨S, hS, hc⟩ := Admissible.cases' h.built
  have eS : D.S = S := by rcases hc with ⟨-, rfl⟩ | ⟨-, rfl⟩ <;> rfl
  subst eS
  have b' : DeRham.mk? ns ps q types F false false = .ok (DeRham.ofBoundary D.S F false) := by
    unfold DeRham.mk?
    rw [hS]
    simp
  have h' : Admissible ns ps q types F false false (DeRham.ofBoundary D.S F false) := ⟨b', h.q10, h.r, h.t, h.z, fun e => absurd e (by simp), h.regular⟩
  obtain ⟨y, hy⟩ := ones_exist h'
  obtain ⟨v, hv⟩ : ∃ v : Fin D.S.L0.dims.n → ℝ, v = (DeRham.ofBoundary D.S F false).E0ᵀ *ᵥ y := ⟨_, rfl⟩
  have e : D.E0ᵀ *ᵥ u - v = 0 := by
    refine Seq.zero0 h.quad _ fun j hj k hk => ?_
    obtain rfl : k = 0 := by omega
    have hj1 : j < D.nq := by rw [show D.nq = D.S.nq from h.quad.len]; exact hj
    have e1 : evaluateAtXq D.S.getLambda0 (D.E0ᵀ *ᵥ u) j 0 = 1 := by
      refine (congrFun (h.eval0 u hj1) 0).trans ?_
      rw [← h.phys0_eq]
      rw [← h.points_len] at hj1
      refine (congrArg (fun z => D.phys0 u z 0) ?_).trans (hu (D.S.Q.x.getD j 0) ?_)
      · rfl
      · rw [List.getD_eq_getElem _ _ hj1]
        exact List.getElem_mem _
    have e2 : evaluateAtXq D.S.getLambda0 v j 0 = 1 := by
      rw [hv]
      refine (congrFun (h'.eval0 y hj1) 0).trans ?_
      obtain ⟨x, hx, ex⟩ := quad_mem h hj1
      have := ones_value h' y hy x hx.1 hx.2.1 hx.2.2
      show discreteFunction D.S.L0 y (DeRham.ofBoundary D.S F false).E0 (DeRham.fromV3 (D.x j)) 0 = 1
      rw [ex, fromV3_toV3]
      exact this
    have lin : ∀ v w : Fin D.S.L0.dims.n → ℝ, evaluateAtXq D.S.getLambda0 (v - w) j 0 = evaluateAtXq D.S.getLambda0 v j 0 - evaluateAtXq D.S.getLambda0 w j 0 := by
      intro v w
      unfold evaluateAtXq
      rw [← sum_sub_distrib]
      exact sum_congr rfl fun i _ => by rw [Pi.sub_apply]; ring
    have := lin (D.E0ᵀ *ᵥ u) v
    rw [e1, e2, sub_self] at this
    exact this
  intro i j l hi hj hl
  rw [sub_eq_zero.mp e, hv]
  exact hy i j l hi hj hl

/-- **C121** with Dirichlet conditions, whatever the types, no field is 1 at all quadrature points: the projection of the constant 1 always loses part of the volume. -/
theorem C121_dirichlet_loses (h : Admissible ns ps q types F polar true D) :
    (∀ u, ∃ x ∈ D.S.Q.x, D.phys0 u (toV3 x) 0 ≠ 1) ∧
    integral D F (D.phys0 (D.M0⁻¹ *ᵥ D.projector0 fun _ _ => 1)) < integral D F (fun _ _ => 1) := by
  have a : ∀ u, ∃ x ∈ D.S.Q.x, D.phys0 u (toV3 x) 0 ≠ 1 := by
    intro u
    by_contra hc
    push Not at hc
    have one := one_coefficients h u hc
    have hd := h.dims0
    have p1 := dirOK_pos h.r
    have p2 := dirOK_pos h.t
    have p3 := dirOK_pos h.z
    have hpol := h.polar
    obtain ⟨S, hS, ⟨hp, rfl⟩ | ⟨hp, rfl⟩⟩ := Admissible.cases' h.built
    · have v := ones_value h u one (1, 0, 0) (by norm_num) (by norm_num) (by norm_num)
      rw [(C26_sequence_dirichlet h (hpol hp).1 0 0 1 (Or.inl rfl)).1 u] at v
      exact zero_ne_one v
    · have e : S.L0.dims = ⟨0, ns.1, ns.2.1, ns.2.2, S.L0.dims.dr, S.L0.dims.dt, S.L0.dims.dz⟩ := by
        rw [show S.L0.dims = _ from hd]
      have hk : S.L0.dims.k = 0 ∨ S.L0.dims.k = 1 ∨ S.L0.dims.k = 2 ∨ S.L0.dims.k = 3 := by rw [e]; simp
      have hv : Dims.validDegree S.L0.dims.k := by rw [e]; exact Or.inl rfl
      have hin : S.L0.dims.InRange 0 0 0 0 := by rw [e]; exact ⟨p1, p2, p3⟩
      obtain ⟨sel, -, hm, hs⟩ := C26_rows_select_kept_dofs (BoundaryOp.mk S.L0.dims (bcTypes true)) hk
      have o : coef S.L0.dims ((BoundaryOp.mk S.L0.dims (bcTypes true)).matrixᵀ *ᵥ u) 0 0 0 0 = 1 := one 0 0 0 p1 p2 p3
      rw [PolarOp.coef_eq hv hin] at o
      refine zero_ne_one (Eq.trans (Eq.symm ?_) o)
      show ∑ r, (BoundaryOp.mk S.L0.dims (bcTypes true)).matrix r _ * u r = 0
      refine sum_eq_zero fun r _ => ?_
      rw [hm, if_neg fun c => ?_, zero_mul]
      have k : Kept S.L0.dims (bcTypes true) (S.L0.dims.unravelIndex (S.L0.dims.ravelIndex 0 0 0 0)) := (hs _).mp ⟨r, c.symm⟩
      rw [S.L0.dims.unravelIndex_ravelIndex hv hin] at k
      unfold Kept at k
      have k0 : S.L0.dims.k = 0 := by rw [e]
      simp [isDeriv, k0, bcTypes, Keeps1, LeftConstrained] at k
  refine ⟨a, lt_of_le_of_ne (C121_projection_loss h).2.1 fun e => ?_⟩
  obtain ⟨x, hx, n⟩ := a (D.M0⁻¹ *ᵥ D.projector0 fun _ _ => 1)
  exact n ((C121_projection_loss h).2.2.mp e x hx)

/-- **C121** all entries of the mass matrix of functions are non-negative, in every sequence, and those on the diagonal positive. -/
theorem C121_entries (h : Admissible ns ps q types F polar dirichlet D) : (∀ a b, 0 ≤ D.M0 a b) ∧ (∀ a, 0 < D.M0 a a) := by
  have s : ∀ a c : Fin D.m0, (0 : ℝ) ≤ (Pi.single a 1 : Fin D.m0 → ℝ) c := fun a c => by
    by_cases hc : c = a
    · subst hc; simp
    · simp [Pi.single_eq_of_ne hc]
  refine ⟨fun a b => ?_, fun a => ?_⟩
  · rw [M0_entry, h.M0_l2, h.l2_eq]
    refine sum_nonneg fun j hj => mul_nonneg ?_ (weight_pos h (mem_range.mp hj)).le
    obtain ⟨x, hx, e⟩ := quad_mem h (mem_range.mp hj)
    rw [e]
    simp only [dotProduct, univ_unique, sum_singleton]
    exact mul_nonneg (basis_nonneg h _ (s a) x hx) (basis_nonneg h _ (s b) x hx)
  · rw [M0_entry]
    refine (C31_mass_matrices_definite h).1.2 _ fun e => ?_
    have := congrFun e a
    simp at this

/-- **C121** mass lumping, in every sequence: the row sums are positive, and the lumped matrix is at least the mass matrix; the difference of the two quadratic forms is half the sum of the entries
times the squared differences of the coefficients. So the greatest row sum bounds the quadratic form. -/
theorem C121_lumping (h : Admissible ns ps q types F polar dirichlet D) :
    (∀ a, 0 < lumped D a) ∧ (∀ v : Fin D.m0 → ℝ, ∑ a, lumped D a * v a ^ 2 - v ⬝ᵥ D.M0 *ᵥ v = (∑ a, ∑ b, D.M0 a b * (v a - v b) ^ 2) / 2) ∧
    (∀ v : Fin D.m0 → ℝ, v ⬝ᵥ D.M0 *ᵥ v ≤ ∑ a, lumped D a * v a ^ 2) ∧
    (∀ c, (∀ a, lumped D a ≤ c) → ∀ v : Fin D.m0 → ℝ, v ⬝ᵥ D.M0 *ᵥ v ≤ c * (v ⬝ᵥ v)) := by
  obtain ⟨e0, ed⟩ := C121_entries h
  obtain ⟨m0, -, -, -⟩ := C31_mass_matrices_definite h
  have sym : ∀ a b, D.M0 a b = D.M0 b a := fun a b => by
    have := congrFun (congrFun m0.1 b) a
    rwa [transpose_apply] at this
  have def' : ∀ v : Fin D.m0 → ℝ, ∑ a, lumped D a * v a ^ 2 - v ⬝ᵥ D.M0 *ᵥ v = (∑ a, ∑ b, D.M0 a b * (v a - v b) ^ 2) / 2 := fun v => by
    have t1 : ∑ a, ∑ b, D.M0 a b * v a ^ 2 = ∑ a, lumped D a * v a ^ 2 := sum_congr rfl fun a _ => by unfold lumped; rw [sum_mul]
    have t2 : ∑ a, ∑ b, D.M0 a b * v b ^ 2 = ∑ a, lumped D a * v a ^ 2 := by
      rw [sum_comm, ← t1]
      exact sum_congr rfl fun a _ => sum_congr rfl fun b _ => by rw [sym]
    have t3 : ∑ a, ∑ b, D.M0 a b * (v a * v b) = v ⬝ᵥ D.M0 *ᵥ v := by
      simp only [dotProduct, mulVec, mul_sum]
      exact sum_congr rfl fun a _ => sum_congr rfl fun b _ => by ring
    have e : ∀ a b, D.M0 a b * (v a - v b) ^ 2 = D.M0 a b * v a ^ 2 + D.M0 a b * v b ^ 2 - 2 * (D.M0 a b * (v a * v b)) := fun a b => by ring
    simp only [e, sum_sub_distrib, sum_add_distrib, ← mul_sum]
    rw [t1, t2, t3]
    ring
  have le : ∀ v : Fin D.m0 → ℝ, v ⬝ᵥ D.M0 *ᵥ v ≤ ∑ a, lumped D a * v a ^ 2 := fun v => by
    have := def' v
    have : 0 ≤ ∑ a, ∑ b, D.M0 a b * (v a - v b) ^ 2 := sum_nonneg fun a _ => sum_nonneg fun b _ => mul_nonneg (e0 a b) (sq_nonneg _)
    linarith
  refine ⟨fun a => lt_of_lt_of_le (ed a) (single_le_sum (f := fun b => D.M0 a b) (fun b _ => e0 a b) (mem_univ a)), def', le, fun c hc v => (le v).trans ?_⟩
  unfold dotProduct
  rw [mul_sum]
  refine sum_le_sum fun a _ => ?_
  rw [← pow_two]
  exact mul_le_mul_of_nonneg_right (hc a) (sq_nonneg _)

/-- **C121** without Dirichlet conditions the lumped masses are the integrals of the basis functions and add up to the volume. -/
theorem C121_lumped_masses (h : Admissible ns ps q types F polar false D) :
    (∀ a, lumped D a = integral D F (D.phys0 (Pi.single a 1))) ∧ ∑ a, lumped D a = integral D F (fun _ _ => 1) := by
  obtain ⟨m0, -, -, -⟩ := C31_mass_matrices_definite h
  refine ⟨fun a => ?_, ?_⟩
  · rw [← (C121_integrals h).1]
    simp only [dotProduct, one_mul, mulVec_single_one, lumped]
    exact sum_congr rfl fun b _ => by
      have := congrFun (congrFun m0.1 a) b
      rw [transpose_apply] at this
      exact this.symm
  · rw [← (C121_integrals h).2.2.1]
    simp [dotProduct, mulVec, lumped]

/-- **C121** (exact domain) without Dirichlet conditions, radially clamped: weak divergences have the integral zero, for every 1-form, exactly for the resolutions in which the gradient of a constant
vanishes; and the Laplacian conserves the integral (diffusion keeps the mass) exactly for the same. -/
theorem C121_conservation_iff (h : Admissible ns ps q types F polar false D) (hr : types.1 = "clamped") :
    ((∀ A, integral D F (D.phys0 (D.weakDiv *ᵥ A)) = 0) ↔ (ns.1 = ns.2.1 ∨ ns.1 = ns.2.1 + 1) ∧ Form.dsize ns.2.2 types.2.2 ≤ ns.2.1) ∧
    ((∀ v, integral D F (D.phys0 (D.dd0 *ᵥ v)) = 0) ↔ (ns.1 = ns.2.1 ∨ ns.1 = ns.2.1 + 1) ∧ Form.dsize ns.2.2 types.2.2 ≤ ns.2.1) := by
  obtain ⟨m0, m1, m2, m3⟩ := C31_mass_matrices_definite h
  have u : ∀ {n : Nat} {M : Matrix (Fin n) (Fin n) ℝ}, SPD M → IsUnit M.det := fun hM => SPD.det hM
  obtain ⟨y, hy, g, k⟩ := C76_gradient_of_constants h hr
  have e : y = fun _ => 1 := by
    have c := (C36_projection_reproduces h).1
    rw [← (c y).2, ← (c fun _ => 1).2, projector0_congr h (D.phys0 y) (D.phys0 fun _ => 1) fun x hx => ?_]
    rw [C121_constants h 1 x hx, h.phys0_eq]
    show discreteFunction D.S.L0 y D.E0 (DeRham.fromV3 (toV3 x)) 0 = 1
    rw [fromV3_toV3]
    exact hy x hx.1 hx.2.1 hx.2.2
  rw [e] at g k
  constructor
  · rw [← g]
    have ad := (C32_adjoint_operators h.built (u m0) (u m1) (u m2) (u m3)).1 (fun _ => 1)
    constructor
    · intro H
      by_contra hne
      have p := m1.2 _ hne
      rw [ad, (C121_integrals h).1, H] at p
      simp at p
    · intro H A
      rw [← (C121_integrals h).1, ← neg_eq_zero, ← ad A, H, zero_dotProduct]
  · rw [← k]
    have s := (C34_laplacians_semidefinite h).1
    have sw : ∀ v, (fun _ => 1) ⬝ᵥ D.M0 *ᵥ (D.dd0 *ᵥ v) = v ⬝ᵥ D.M0 *ᵥ (D.dd0 *ᵥ fun _ => 1) := fun v => by
      rw [mulVec_mulVec, mulVec_mulVec, dotProduct_mulVec, ← mulVec_transpose, s.1, dotProduct_comm]
    constructor
    · intro H
      have z : D.M0 *ᵥ (D.dd0 *ᵥ fun _ => 1) = 0 := by
        rw [← dotProduct_self_eq_zero]
        have := H (D.M0 *ᵥ (D.dd0 *ᵥ fun _ => 1))
        rw [← (C121_integrals h).1, sw] at this
        exact this
      have := congrArg (D.M0⁻¹ *ᵥ ·) z
      simpa [mulVec_mulVec, ← Matrix.mul_assoc, Matrix.nonsing_inv_mul _ (u m0)] using this
    · intro H v
      rw [← (C121_integrals h).1, sw, H]
      simp

/-- **C121** expected but false: that a weak divergence has the integral zero on every domain without Dirichlet conditions. -/
def C121_conservation_statement : Prop := ∀ (ns ps : Nat × Nat × Nat) (q : Nat) (types : String × String × String) (F : V3 → V3) (polar : Bool) (D : DeRham),
  Admissible ns ps q types F polar false D → types.1 = "clamped" → ∀ A, integral D F (D.phys0 (D.weakDiv *ᵥ A)) = 0

/-- **C121** (finding) for 5 x 6 x 4 splines it is false. -/
theorem C121_conservation_false : ¬ C121_conservation_statement := by
  intro H
  obtain ⟨D, h⟩ := Admissible.example true false
  have := (C121_conservation_iff h rfl).1.mp (H _ _ _ _ _ _ _ h rfl)
  simp at this

/-! ## The hypotheses are met -/

example (polar : Bool) := C121_integrals (Case.adm polar false)
example (polar : Bool) := C121_projection_conserves (Case.adm polar false)
example (polar dirichlet : Bool) := C121_projection_loss (Case.adm polar dirichlet)
example (polar : Bool) := C121_dirichlet_loses (Case.adm polar true)
example (polar dirichlet : Bool) := C121_lumping (Case.adm polar dirichlet)
example (polar dirichlet : Bool) := C121_entries (Case.adm polar dirichlet)
example (polar : Bool) := C121_lumped_masses (Case.adm polar false)
/-- The resolution of the standard case conserves. -/
example (polar : Bool) := (C121_conservation_iff (Case.adm polar false) rfl).1.mpr ⟨Or.inl rfl, by decide⟩

end Mrx.Props
