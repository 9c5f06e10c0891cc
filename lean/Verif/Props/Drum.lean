import Verif.Proofs.Case
import Verif.Proofs.Drum
import Verif.Proofs.Cholesky
import Verif.Proofs.MinMax
import Verif.Props.HarmonicNeg
import Verif.Props.Mappings2
import Verif.Props.Bounds
import Verif.Props.Start

/-!
# C90: the spectrum of a drum (`scripts/interactive/drumshape.py`)
-/

set_option linter.unusedVariables false
set_option linter.unusedSectionVars false

namespace Mrx.Props
open Matrix Finset Real Spec

section solver
variable {n : Nat}

/-- The documented behaviour of `jnp.linalg.cholesky` and `jnp.linalg.eigh`. -/
structure SolverOK (chol : Matrix (Fin n) (Fin n) ℝ → Matrix (Fin n) (Fin n) ℝ)
    (eigh : Matrix (Fin n) (Fin n) ℝ → (Fin n → ℝ) × Matrix (Fin n) (Fin n) ℝ) : Prop where
  chol : ∀ A, SPD A → IsCholesky A (chol A)
  eigh : ∀ A, Aᵀ = A → IsEigh A (eigh A).1 (eigh A).2

/-- Such routines exist. -/
theorem C90_solver_exists (n : Nat) : ∃ chol eigh, SolverOK (n := n) chol eigh := by
  classical
  obtain ⟨f, hf⟩ : ∃ f : Matrix (Fin n) (Fin n) ℝ → Matrix (Fin n) (Fin n) ℝ, ∀ A, SPD A → IsCholesky A (f A) :=
    ⟨fun A => if h : SPD A then (exists_cholesky h).choose else 0, fun A h => by simp only [h, dif_pos]; exact (exists_cholesky h).choose_spec⟩
  have key : ∀ A : Matrix (Fin n) (Fin n) ℝ, ∃ r : (Fin n → ℝ) × Matrix (Fin n) (Fin n) ℝ, Aᵀ = A → IsEigh A r.1 r.2 := fun A => by
    by_cases h : Aᵀ = A
    · obtain ⟨w, V, hV⟩ := exists_eigh h
      exact ⟨(w, V), fun _ => hV⟩
    · exact ⟨(0, 0), fun e => absurd e h⟩
  choose g hg using key
  exact ⟨f, g, hf, hg⟩

theorem spd_shift {B : Matrix (Fin n) (Fin n) ℝ} (hB : SPSD B) {e : ℝ} (he : 0 < e) : SPD (B + e • 1) := by
  refine ⟨by rw [transpose_add, transpose_smul, transpose_one, hB.1], fun x hx => ?_⟩
  rw [add_mulVec, dotProduct_add, smul_mulVec, one_mulVec, dotProduct_smul, smul_eq_mul]
  have h1 := hB.2 x
  have h2 : 0 < x ⬝ᵥ x := lt_of_le_of_ne (dot_self_nonneg x) fun e => hx (dotProduct_self_eq_zero.mp e.symm)
  have := mul_pos he h2
  linarith

/-- **C90** `generalized_eigh(A, B)`, for symmetric `A` and positive semidefinite `B`: an exact solution of the problem
`A v = λ (B + 1e-12 I) v`, with ascending eigenvalues and eigenvectors orthonormal for `B + 1e-12 I`. -/
theorem C90_generalized_eigh {chol eigh} (hs : SolverOK (n := n) chol eigh) {A B : Matrix (Fin n) (Fin n) ℝ} (hA : Aᵀ = A) (hB : SPSD B) :
    IsGEigh A (B + (1e-12 : ℝ) • 1) (generalizedEigh chol eigh A B).1 (generalizedEigh chol eigh A B).2 := by
  have hL := hs.chol _ (spd_shift hB (e := 1e-12) (by norm_num))
  exact geigh_of_cholesky hL (hs.eigh _ (by
    rw [transpose_mul, transpose_mul, transpose_transpose, hA, Matrix.mul_assoc]))

/-- Case: the matrices `diag (1, 3)` and `diag (2, 0)`. -/
example := C90_generalized_eigh (C90_solver_exists 2).choose_spec.choose_spec (A := diagonal ![1, 3]) (B := diagonal ![2, 0]) (by simp)
  ⟨by simp, fun x => by simp [dotProduct, mulVec_diagonal]; nlinarith [mul_self_nonneg (x 0)]⟩

theorem geigh_smul {A M : Matrix (Fin n) (Fin n) ℝ} {w : Fin n → ℝ} {V : Matrix (Fin n) (Fin n) ℝ} (h : IsGEigh A M w V) {t : ℝ} (ht : 0 ≤ t) :
    IsGEigh (t • A) M (fun k => t * w k) V := by
  refine ⟨h.orth, ?_, fun i j hij => mul_le_mul_of_nonneg_left (h.sorted hij) ht⟩
  have e : diagonal (fun k => t * w k) = t • diagonal w := by
    rw [← diagonal_smul]; rfl
  rw [smul_mul, h.eig, e, Matrix.mul_smul]

/-- **C90** what the shift does to the eigenvalues of a positive definite problem: they do not grow, and the relative change is at most
`1e-12 / μ`, where `μ` is a lower bound of the mass matrix. -/
theorem C90_regularised_spectrum {chol eigh} (hs : SolverOK (n := n) chol eigh) {A B : Matrix (Fin n) (Fin n) ℝ} (hA : SPSD A) (hB : SPD B)
    {μ : ℝ} (hμ : 0 < μ) (hm : ∀ x : Fin n → ℝ, μ * (x ⬝ᵥ x) ≤ x ⬝ᵥ B *ᵥ x) {w : Fin n → ℝ} {V : Matrix (Fin n) (Fin n) ℝ} (hV : IsGEigh A B w V)
    (k : Fin n) : 0 ≤ (generalizedEigh chol eigh A B).1 k ∧ (generalizedEigh chol eigh A B).1 k ≤ w k
      ∧ w k ≤ (1 + 1e-12 / μ) * (generalizedEigh chol eigh A B).1 k := by
  have hE : (0 : ℝ) < 1e-12 := by norm_num
  have h := C90_generalized_eigh hs hA.1 hB.psd
  have hM := spd_shift hB.psd hE
  have ev : ∀ x : Fin n → ℝ, x ⬝ᵥ (B + (1e-12 : ℝ) • 1) *ᵥ x = x ⬝ᵥ B *ᵥ x + 1e-12 * (x ⬝ᵥ x) := fun x => by
    rw [add_mulVec, dotProduct_add, smul_mulVec, one_mulVec, dotProduct_smul, smul_eq_mul]
  have ht : (0 : ℝ) ≤ 1 + 1e-12 / μ := by positivity
  refine ⟨h.nonneg hA k, geigh_compare h hV hA.1 hM hA.1 hB (fun x => ?_) k, ?_⟩
  · rw [ev]
    refine mul_le_mul_of_nonneg_left ?_ (hA.2 x)
    have := mul_nonneg hE.le (dot_self_nonneg x)
    linarith
  · refine geigh_compare hV (geigh_smul h ht) hA.1 hB (by rw [transpose_smul, hA.1]) hM (fun x => ?_) k
    rw [ev, smul_mulVec, dotProduct_smul, smul_eq_mul, mul_comm (1 + 1e-12 / μ), mul_assoc]
    refine mul_le_mul_of_nonneg_left ?_ (hA.2 x)
    have h1 : 1e-12 * (x ⬝ᵥ x) = 1e-12 / μ * (μ * (x ⬝ᵥ x)) := by field_simp
    have h2 := mul_le_mul_of_nonneg_left (hm x) (show (0 : ℝ) ≤ 1e-12 / μ by positivity)
    rw [h1]
    linarith

/-- **C90** the loss of the inverse problem is never negative, and zero exactly if the first `kMax` eigenvalues are the targets. -/
theorem C90_loss (kMax : Nat) (evs target : Fin n → ℝ) (ht : ∀ k : Fin n, k.1 < kMax → target k ≠ 0) :
    0 ≤ fitEvs kMax evs target ∧ (fitEvs kMax evs target = 0 ↔ ∀ k : Fin n, k.1 < kMax → evs k = target k) := by
  have hp : ∀ k ∈ univ.filter (fun k : Fin n => k.1 < kMax), 0 ≤ (evs k - target k) ^ 2 / target k ^ 2 := fun k _ => by positivity
  refine ⟨sum_nonneg hp, ?_⟩
  unfold fitEvs
  rw [sum_eq_zero_iff_of_nonneg hp]
  constructor
  · intro h k hk
    have := h k (by simp [hk])
    rw [div_eq_zero_iff] at this
    rcases this with e | e
    · exact sub_eq_zero.mp (pow_eq_zero_iff (by norm_num) |>.mp e)
    · exact absurd (pow_eq_zero_iff (by norm_num) |>.mp e) (ht k hk)
  · intro h k hk
    rw [h k (by simpa using hk)]; simp

/-- Case: three frequencies, the first two of which are compared. -/
example := C90_loss (n := 3) 2 ![1, 2, 4] ![1, 3, 0] (by intro k hk; fin_cases k <;> simp_all)

end solver

section drum
variable {ns ps : Nat × Nat × Nat} {q : Nat} {types : String × String × String} {F F0 : V3 → V3} {polar dirichlet : Bool} {D : DeRham}

/-- The same discretisation with another map. -/
noncomputable def withMap (D : DeRham) (F : V3 → V3) : DeRham := { D with F := F, g := Metric.ofMap F (D.S.Q.x.map toV3) }

/-- **C90** `get_evs` assembles by hand exactly the mass matrix and the Laplacian that `DeRhamSequence` assembles for the drum's own map,
although the sequence passed to it was built with another map. -/
theorem C90_same_as_sequence (hb : DeRham.mk? ns ps q types F0 polar dirichlet = .ok D) (F : V3 → V3) :
    DeRham.mk? ns ps q types F polar dirichlet = .ok (withMap D F) ∧ drumM D F = (withMap D F).M0 ∧
    solve (drumM D F) (drumK D F) = (withMap D F).dd0 := by
  refine ⟨?_, rfl, ?_⟩
  · obtain ⟨S, hS, h⟩ := Admissible.cases' hb
    unfold DeRham.mk?
    rw [hS]
    rcases h with ⟨rfl, rfl⟩ | ⟨rfl, rfl⟩ <;> rfl
  · unfold DeRham.dd0
    have e : drumK D F = (withMap D F).E0 * assemble (withMap D F).S.getDLambda0 (withMap D F).S.getDLambda0 (withMap D F).nq 3 (withMap D F).W1
        (withMap D F).S.L0.dims.n (withMap D F).S.L0.dims.n * (withMap D F).E0ᵀ := by
      unfold drumK
      have : (fun j => fun k l => (Metric.ofMap F (D.S.Q.x.map toV3)).Ginv j k l * (Metric.ofMap F (D.S.Q.x.map toV3)).J j * D.w j : Nat → M33)
          = (withMap D F).W1 := by
        funext j k l
        unfold DeRham.W1
        exact mul_assoc _ _ _
      beta_reduce
      exact congrArg (fun W => D.E0 * assemble D.S.getDLambda0 D.S.getDLambda0 D.nq 3 W D.S.L0.dims.n D.S.L0.dims.n * D.E0ᵀ) this
    rw [e]
    rfl

theorem withMap_admissible (h : Admissible ns ps q types F0 polar dirichlet D) (hF : ∀ x ∈ D.S.Q.x, 1e-5 ≤ jacobianDeterminant F (toV3 x)) :
    Admissible ns ps q types F polar dirichlet (withMap D F) :=
  ⟨(C90_same_as_sequence h.built F).1, h.q10, h.r, h.t, h.z, h.polar, hF⟩

theorem mul_solve {n : Nat} {M : Matrix (Fin n) (Fin n) ℝ} (hM : SPD M) (K : Matrix (Fin n) (Fin n) ℝ) : M * solve M K = K := by
  unfold solve
  rw [← Matrix.mul_assoc, hM.mul_inv, Matrix.one_mul]

theorem drum_matrices (h : Admissible ns ps q types F0 polar dirichlet D) (hF : ∀ x ∈ D.S.Q.x, 1e-5 ≤ jacobianDeterminant F (toV3 x)) :
    SPD (drumM D F) ∧ drumK D F = (withMap D F).M0 * (withMap D F).dd0 ∧ SPSD (drumK D F) := by
  have ha := withMap_admissible h hF
  have m := (C31_mass_matrices_definite ha).1
  have e : drumK D F = (withMap D F).M0 * (withMap D F).dd0 := by
    have r := mul_solve (M := drumM D F) m (drumK D F)
    rw [(C90_same_as_sequence h.built F).2.2] at r
    exact r.symm
  exact ⟨m, e, e ▸ (C34_laplacians_semidefinite ha).1⟩

/-- **C90** `get_evs`, for any map that is regular at the quadrature points: eigenvalues of the weak Laplacian with the mass matrix shifted by
`1e-12`; not negative, in ascending order, with eigenvectors orthonormal for the shifted mass matrix. -/
theorem C90_spectrum (h : Admissible ns ps q types F0 polar dirichlet D) (hF : ∀ x ∈ D.S.Q.x, 1e-5 ≤ jacobianDeterminant F (toV3 x))
    {chol eigh} (hs : SolverOK (n := D.m0) chol eigh) :
    IsGEigh (drumK D F) (drumM D F + (1e-12 : ℝ) • 1) (generalizedEigh chol eigh (drumK D F) (drumM D F)).1
      (generalizedEigh chol eigh (drumK D F) (drumM D F)).2 ∧
    ∀ k, 0 ≤ (generalizedEigh chol eigh (drumK D F) (drumM D F)).1 k := by
  obtain ⟨m, _, p⟩ := drum_matrices h hF
  have g := C90_generalized_eigh hs p.1 m.psd
  exact ⟨g, g.nonneg p⟩

/-- Case: the standard case, on its own map. -/
example (polar dirichlet : Bool) := C90_spectrum (F := Case.map) (Case.adm polar dirichlet) (fun x _ => by rw [Case.map_det]; norm_num) (C90_solver_exists _).choose_spec.choose_spec

theorem ker_drumK (h : Admissible ns ps q types F0 polar dirichlet D) (hF : ∀ x ∈ D.S.Q.x, 1e-5 ≤ jacobianDeterminant F (toV3 x)) :
    Module.finrank ℝ (LinearMap.ker (drumK D F).mulVecLin) = Module.finrank ℝ (LinearMap.ker (withMap D F).dd0.mulVecLin) := by
  obtain ⟨m, e, _⟩ := drum_matrices h hF
  rw [e]
  exact congrArg (fun s : Submodule ℝ (Fin D.m0 → ℝ) => Module.finrank ℝ s) (ker_mul_dd (A := (withMap D F).dd0) m)

/-- **C90** the drum is fixed at its boundary, so all its frequencies should be positive: for the disc sequence of the script (polar, Dirichlet)
this is so exactly if there are at most as many radial as poloidal splines; otherwise the lowest computed eigenvalue is zero. -/
theorem C90_frequencies_positive_iff (h : Admissible ns ps q types F0 true true D) (hF : ∀ x ∈ D.S.Q.x, 1e-5 ≤ jacobianDeterminant F (toV3 x))
    {chol eigh} (hs : SolverOK (n := D.m0) chol eigh) :
    (∀ k, 0 < (generalizedEigh chol eigh (drumK D F) (drumM D F)).1 k) ↔ ns.1 ≤ ns.2.1 := by
  obtain ⟨g, nn⟩ := C90_spectrum h hF hs
  obtain ⟨m, e, p⟩ := drum_matrices h hF
  obtain ⟨a, b, c, _⟩ := h.polar rfl
  have hk := C73_scalar_harmonics (withMap_admissible h hF) a (by rw [b]; decide) c
  rw [← ker_drumK h hF] at hk
  have hz := fun k => g.zero_iff p k
  rw [hk] at hz
  constructor
  · intro hp
    by_contra hn
    rw [if_pos ⟨by omega, Or.inl rfl⟩] at hz hk
    have hb : betti true true 0 = 0 := rfl
    rw [hb] at hz hk
    have hpos : 0 < D.m0 := by
      by_contra h0
      have := LinearMap.ker (drumK D F).mulVecLin |>.finrank_le
      rw [hk, Module.finrank_fin_fun] at this
      omega
    exact (hp ⟨0, hpos⟩).ne' ((hz ⟨0, hpos⟩).mpr (by norm_num))
  · intro hle k
    rw [if_neg (by omega)] at hz
    refine lt_of_le_of_ne (nn k) fun e0 => ?_
    have := (hz k).mp e0.symm
    have hb : betti true true 0 = 0 := rfl
    rw [hb] at this
    omega

end drum

section geometry
variable {ns ps : Nat × Nat × Nat} {q : Nat} {types : String × String × String} {F F0 : V3 → V3} {polar dirichlet : Bool} {D : DeRham}

/-- The quadrature points of a disc lie strictly inside the logical domain. -/
theorem points_inside (h : Admissible ns ps q types F0 polar dirichlet D) (hr : types.1 = "clamped") (ht : types.2.1 = "periodic")
    {x : ℝ × ℝ × ℝ} (hx : x ∈ D.S.Q.x) : 0 < x.1 ∧ x.1 < 1 ∧ 0 < x.2.1 ∧ x.2.1 < 1 := by
  obtain ⟨m0, _, _, _, hQ⟩ := Seq.mk?_inv (Admissible.seq h.built)
  obtain ⟨_, _, s0, s1, _⟩ := Form.mk?_inv m0
  have htens := Seq.rule_isTensor hQ
  unfold Quad.Rule.mk? at hQ
  split at hQ
  case h_2 => cases hQ
  rename_i rx ry rz hx' hy' hz'
  have hQ' := Except.ok.inj hQ
  have exx : D.S.Q.xx = rx.1 := by rw [← hQ']; rfl
  have exy : D.S.Q.xy = ry.1 := by rw [← hQ']; rfl
  rw [htens] at hx
  simp only [List.mem_flatMap, List.mem_map] at hx
  obtain ⟨y, hy, r, hr', z, hz, rfl⟩ := hx
  have dr := h.r
  have dt := h.t
  have q10 := h.q10
  rw [hr] at dr s0
  rw [ht] at dt s1
  rcases dr with ⟨_, a, b, c, e⟩ | ⟨e, _⟩ | ⟨e, _⟩
  rotate_left
  · exact absurd e (by decide)
  · exact absurd e (by decide)
  rcases dt with ⟨e', _⟩ | ⟨_, a', b', c', d', e'⟩ | ⟨e', _⟩
  · exact absurd e' (by decide)
  rotate_left
  · exact absurd e' (by decide)
  obtain ⟨xs, ws, h1, _, _, _, h2, _⟩ := C11_select_rule ns.1 ps.1 a "clamped" _ (Or.inl ⟨rfl, b, rfl⟩) _ s0 q (by omega) q10
  obtain ⟨ys, vs, h3, _, _, _, h4, _⟩ := C11_select_rule ns.2.1 ps.2.1 a' "periodic" _ (Or.inr ⟨rfl, c', b', rfl⟩) _ s1 q (by omega) q10
  rw [h1] at hx'
  rw [h3] at hy'
  rw [exx, ← Except.ok.inj hx'] at hr'
  rw [exy, ← Except.ok.inj hy'] at hy
  exact ⟨(h2 r hr').1, (h2 r hr').2, (h4 y hy).1, (h4 y hy).2⟩

/-- The radius function of the script is the periodic spline with the coefficients `a_hat`. -/
theorem drumRadius_eq {nm pm : Nat} {Λmap : Form ℝ} (hm : Form.mk? 0 (nm, 1, 1) (pm, 0, 0) ("periodic", "constant", "constant") = .ok Λmap)
    (aHat : Nat → ℝ) (χ : ℝ) : drumRadius Λmap aHat χ = ∑ i ∈ range nm, aHat i * Λmap.Λ0.evaluate χ (i : Int) := by
  have hw := Form.mk?_wf hm
  obtain ⟨_, hd, s0, s1, s2, _⟩ := Form.mk?_inv hm
  have hn : Λmap.dims.n = nm := by rw [hd]; simp [Dims.n, Dims.n1, Dims.n2, Dims.n3]
  have hk : Λmap.dims.k = 0 := by rw [hd]
  unfold drumRadius discreteFunction
  rw [vecMul_one]
  unfold dotProduct
  rw [Fin.sum_univ_eq_sum_range (fun i => aHat i * Λmap.evaluate (χ, 0, 0) i 0) Λmap.dims.n, hn]
  refine sum_congr rfl fun i hi => ?_
  have hi' := mem_range.mp hi
  have e : Λmap.dims.ravelIndex 0 i 0 0 = i := by
    rw [hd]
    unfold Dims.ravelIndex Jax.ravelMultiIndex3
    simp
    omega
  have hr : Λmap.dims.InRange 0 i 0 0 := by
    rw [hd]
    unfold Dims.InRange Dims.cshape Dims.shape
    simp
    omega
  have := Λmap.evaluate_ravel hw hr (χ, 0, 0) 0 (by rw [hd]; simp [Dims.shape])
  rw [e, if_pos rfl] at this
  rw [this]
  unfold Spec.basisValue Spec.factor Spec.isDeriv
  rw [hk]
  simp
  rw [C09_constant_evaluates_to_one 1 0 "constant" (Or.inl rfl) _ s1, C09_constant_evaluates_to_one 1 0 "constant" (Or.inl rfl) _ s2]
  simp

/-- The Jacobian determinant of a drum map vanishes where the map has no derivative. -/
theorem drum_jacobian (a : ℝ → ℝ) {x : V3} (h0 : 0 < x 0) :
    jacobianDeterminant (drumshapeMap a) x = 2 * π * a (x 1) ^ 2 * x 0 ∨ jacobianDeterminant (drumshapeMap a) x = 0 := by
  by_cases hd : DifferentiableAt ℝ (drumshapeMap a) x
  · left
    have hline : DifferentiableAt ℝ (fun t : ℝ => (![x 0, t, x 2] : V3)) (x 1) := by
      refine differentiableAt_pi.mpr fun i => ?_
      fin_cases i
      · exact differentiableAt_const _
      · exact differentiableAt_id
      · exact differentiableAt_const _
    have hx : (![x 0, x 1, x 2] : V3) = x := by funext i; fin_cases i <;> rfl
    have hcomp : ∀ i, DifferentiableAt ℝ (fun t : ℝ => drumshapeMap a ![x 0, t, x 2] i) (x 1) := fun i => by
      have h1 : DifferentiableAt ℝ (drumshapeMap a) (![x 0, x 1, x 2] : V3) := by rw [hx]; exact hd
      exact differentiableAt_pi.mp (h1.comp (x 1) hline) i
    have hcos : DifferentiableAt ℝ (fun t : ℝ => cos (2 * π * t)) (x 1) :=
      (differentiableAt_id.const_mul (2 * π)).cos
    have hsin : DifferentiableAt ℝ (fun t : ℝ => sin (2 * π * t)) (x 1) :=
      (differentiableAt_id.const_mul (2 * π)).sin
    have hsum := (((hcomp 0).mul hcos).add ((hcomp 2).mul hsin)).const_mul (x 0)⁻¹
    have e : (fun t : ℝ => (x 0)⁻¹ * (((fun t : ℝ => drumshapeMap a ![x 0, t, x 2] 0) * fun t : ℝ => cos (2 * π * t))
        + ((fun t : ℝ => drumshapeMap a ![x 0, t, x 2] 2) * fun t : ℝ => sin (2 * π * t))) t) = a := by
      funext t
      change (x 0)⁻¹ * ((a t * x 0 * cos (2 * π * t)) * cos (2 * π * t) + (a t * x 0 * sin (2 * π * t)) * sin (2 * π * t)) = a t
      have := cos_sq_add_sin_sq (2 * π * t)
      have h0' := h0.ne'
      field_simp
      linear_combination (a t) * this
    have hda : DifferentiableAt ℝ a (x 1) := by
      rw [← e]; exact hsum
    exact C63_drumshape_jacobian hda.hasDerivAt
  · right
    unfold jacobianDeterminant
    rw [jacfwd_not_diff hd, det_zero]

/-- Scaling the radius: the stiffness matrix stays, the mass matrix is multiplied by `c²`. -/
theorem drum_scale (h : Admissible ns ps q types F0 polar dirichlet D) (hz : types.2.2 = "constant") (a : ℝ → ℝ) {c : ℝ} (hc : c ≠ 0)
    (hthr : ∀ x ∈ D.S.Q.x, |jacobianDeterminant (drumshapeMap a) (toV3 x)| < 1e-5 ↔ c ^ 2 * |jacobianDeterminant (drumshapeMap a) (toV3 x)| < 1e-5) :
    drumK D (drumshapeMap fun χ => c * a χ) = drumK D (drumshapeMap a) ∧ drumM D (drumshapeMap fun χ => c * a χ) = c ^ 2 • drumM D (drumshapeMap a) := by
  have hdz : D.S.L0.dΛ2.n ≤ 1 := by
    obtain ⟨m0, _⟩ := Seq.mk?_inv (Admissible.seq h.built)
    obtain ⟨_, hd, _⟩ := Form.mk?_inv m0
    rw [h.quad.wf.f0.dz, hd]
    have := h.z
    rw [hz] at this
    rcases this with ⟨e, _⟩ | ⟨e, _⟩ | ⟨_, e, _⟩
    · exact absurd e (by decide)
    · exact absurd e (by decide)
    · simp [Form.dsize, hz, e]
  have key : ∀ j < D.nq, (Metric.ofMap (drumshapeMap fun χ => c * a χ) (D.S.Q.x.map toV3)).J j = c ^ 2 * (Metric.ofMap (drumshapeMap a) (D.S.Q.x.map toV3)).J j
      ∧ ∀ k l : Fin 3, k ≠ 2 → l ≠ 2 →
        (Metric.ofMap (drumshapeMap fun χ => c * a χ) (D.S.Q.x.map toV3)).Ginv j k l * (Metric.ofMap (drumshapeMap fun χ => c * a χ) (D.S.Q.x.map toV3)).J j
          = (Metric.ofMap (drumshapeMap a) (D.S.Q.x.map toV3)).Ginv j k l * (Metric.ofMap (drumshapeMap a) (D.S.Q.x.map toV3)).J j := by
    intro j hj
    obtain ⟨p1, p2⟩ := h.pointAt hj
    have w := drum_weight a hc (toV3 (D.S.point j)) (hthr _ p2)
    simp only [Metric.ofMap, List.getD_eq_getElem?_getD, p1]
    exact w
  constructor
  · have e : assemble D.S.getDLambda0 D.S.getDLambda0 D.nq 3 (fun j => fun k l =>
          (Metric.ofMap (drumshapeMap fun χ => c * a χ) (D.S.Q.x.map toV3)).Ginv j k l * (Metric.ofMap (drumshapeMap fun χ => c * a χ) (D.S.Q.x.map toV3)).J j * D.w j)
          D.S.L0.dims.n D.S.L0.dims.n
        = assemble D.S.getDLambda0 D.S.getDLambda0 D.nq 3 (fun j => fun k l =>
          (Metric.ofMap (drumshapeMap a) (D.S.Q.x.map toV3)).Ginv j k l * (Metric.ofMap (drumshapeMap a) (D.S.Q.x.map toV3)).J j * D.w j)
          D.S.L0.dims.n D.S.L0.dims.n := by
      ext i i'
      unfold assemble
      refine sum_congr rfl fun j hj => sum_congr rfl fun k _ => sum_congr rfl fun l _ => ?_
      by_cases hk : k = 2
      · subst hk
        have := D.S.getD0_two hdz i j
        change D.S.getDLambda0 i j 2 * _ * _ = D.S.getDLambda0 i j 2 * _ * _
        rw [this]; ring
      · by_cases hl : l = 2
        · subst hl
          have := D.S.getD0_two hdz i' j
          change _ * D.S.getDLambda0 i' j 2 = _ * D.S.getDLambda0 i' j 2
          rw [this]; ring
        · exact congrArg (fun t => D.S.getDLambda0 i j k * (t * D.w j) * D.S.getDLambda0 i' j l) ((key j (mem_range.mp hj)).2 k l hk hl)
    unfold drumK
    exact congrArg (fun X => D.E0 * X * D.E0ᵀ) e
  · have e : assemble D.S.getLambda0 D.S.getLambda0 D.nq 1 (fun j => fun _ _ =>
          (Metric.ofMap (drumshapeMap fun χ => c * a χ) (D.S.Q.x.map toV3)).J j * D.w j) D.S.L0.dims.n D.S.L0.dims.n
        = c ^ 2 • assemble D.S.getLambda0 D.S.getLambda0 D.nq 1 (fun j => fun _ _ =>
          (Metric.ofMap (drumshapeMap a) (D.S.Q.x.map toV3)).J j * D.w j) D.S.L0.dims.n D.S.L0.dims.n := by
      ext i i'
      rw [Matrix.smul_apply]
      unfold assemble
      rw [smul_eq_mul, mul_sum]
      refine sum_congr rfl fun j hj => ?_
      rw [mul_sum]
      refine sum_congr rfl fun k _ => ?_
      rw [mul_sum]
      refine sum_congr rfl fun l _ => ?_
      exact (congrArg (fun t => D.S.getLambda0 i j k * (t * D.w j) * D.S.getLambda0 i' j l) (key j (mem_range.mp hj)).1).trans (by ring)
    unfold drumM
    refine (congrArg (fun X => D.E0 * X * D.E0ᵀ) e).trans ?_
    beta_reduce
    rw [Matrix.mul_smul, smul_mul]

/-- **C90** (while the determinant of the metric stays above the cut-off `1e-10` of `inv33`; the exact condition is `C90_scaling`) a drum scaled by `c` has the same
stiffness matrix and `c²` times the mass matrix, so its exact discrete eigenvalues are those of the original divided by `c²`. -/
theorem C90_scaling_above_cutoff (h : Admissible ns ps q types F0 polar dirichlet D) (hz : types.2.2 = "constant") (a : ℝ → ℝ) {c : ℝ} (hc : c ≠ 0)
    (hthr : ∀ x ∈ D.S.Q.x, 1e-5 ≤ jacobianDeterminant (drumshapeMap a) (toV3 x) ∧ 1e-5 ≤ c ^ 2 * jacobianDeterminant (drumshapeMap a) (toV3 x)) :
    drumK D (drumshapeMap fun χ => c * a χ) = drumK D (drumshapeMap a) ∧ drumM D (drumshapeMap fun χ => c * a χ) = c ^ 2 • drumM D (drumshapeMap a) ∧
    ∀ w V w' V', IsGEigh (drumK D (drumshapeMap a)) (drumM D (drumshapeMap a)) w V →
      IsGEigh (drumK D (drumshapeMap fun χ => c * a χ)) (drumM D (drumshapeMap fun χ => c * a χ)) w' V' → ∀ k, w' k = w k / c ^ 2 := by
  obtain ⟨e1, e2⟩ := drum_scale h hz a hc fun x hx => by
    obtain ⟨t1, t2⟩ := hthr x hx
    rw [abs_of_nonneg (le_trans (by norm_num) t1)]
    exact ⟨fun h => absurd h (not_lt.mpr t1), fun h => absurd h (not_lt.mpr t2)⟩
  refine ⟨e1, e2, fun w V w' V' hV hV' k => ?_⟩
  rw [e1, e2] at hV'
  obtain ⟨m, _, p⟩ := drum_matrices h (F := drumshapeMap a) fun x hx => (hthr x hx).1
  have hc2 : (0 : ℝ) < c ^ 2 := by positivity
  have hV2 : IsGEigh (drumK D (drumshapeMap a)) (drumM D (drumshapeMap a)) (fun k => c ^ 2 * w' k) (c • V') := by
    refine ⟨?_, ?_, fun i j hij => mul_le_mul_of_nonneg_left (hV'.sorted hij) hc2.le⟩
    · have := hV'.orth
      rw [Matrix.mul_smul, smul_mul] at this
      rw [transpose_smul, smul_mul, smul_mul, Matrix.mul_smul, smul_smul, ← sq]
      exact this
    · have := hV'.eig
      have e : diagonal (fun k => c ^ 2 * w' k) = c ^ 2 • diagonal w' := by rw [← diagonal_smul]; rfl
      rw [Matrix.mul_smul, this, e, Matrix.mul_smul, Matrix.mul_smul, smul_mul, smul_mul, smul_mul, smul_comm c]
  have := congrFun (geigh_unique hV hV2 p.1 m) k
  rw [this]
  field_simp

/-- **C90** the sign of the radius is inaudible: `a_hat` and `-a_hat` give the same matrices, hence the same eigenvalues and the same loss. -/
theorem C90_sign (h : Admissible ns ps q types F0 polar dirichlet D) (hz : types.2.2 = "constant") (chol eigh) {nm pm : Nat} {Λmap : Form ℝ}
    (hm : Form.mk? 0 (nm, 1, 1) (pm, 0, 0) ("periodic", "constant", "constant") = .ok Λmap) (aHat : Nat → ℝ) :
    getEvs D chol eigh Λmap (fun i => -aHat i) = getEvs D chol eigh Λmap aHat := by
  have e : drumRadius Λmap (fun i => -aHat i) = fun χ => -1 * drumRadius Λmap aHat χ := by
    funext χ
    rw [drumRadius_eq hm, drumRadius_eq hm, mul_sum]
    exact sum_congr rfl fun i _ => by ring
  obtain ⟨e1, e2⟩ := drum_scale h hz (drumRadius Λmap aHat) (c := -1) (by norm_num) fun x hx => by norm_num
  have e3 : drumM D (drumshapeMap fun χ => -1 * drumRadius Λmap aHat χ) = drumM D (drumshapeMap (drumRadius Λmap aHat)) := by
    rw [e2]; norm_num
  change generalizedEigh chol eigh (drumK D (drumshapeMap (drumRadius Λmap fun i => -aHat i))) (drumM D (drumshapeMap (drumRadius Λmap fun i => -aHat i)))
    = generalizedEigh chol eigh (drumK D (drumshapeMap (drumRadius Λmap aHat))) (drumM D (drumshapeMap (drumRadius Λmap aHat)))
  rw [e, e1, e3]

/-- **C90** (finding) drums whose coefficients are all below `1e-3` are silent: at every quadrature point the determinant of the metric is
below the cut-off of `inv33`, the stiffness matrix is zero, and so are all eigenvalues, whatever the shape. -/
theorem C90_small_drums_silent (h : Admissible ns ps q types F0 polar dirichlet D) (hr : types.1 = "clamped") (ht : types.2.1 = "periodic")
    {chol eigh} (hs : SolverOK (n := D.m0) chol eigh) {nm pm : Nat} (hp : 1 ≤ pm) (hnm : 1 ≤ nm) (hpn : pm < nm ∨ pm = 1) (hfine : nm ≤ 49975) {Λmap : Form ℝ}
    (hm : Form.mk? 0 (nm, 1, 1) (pm, 0, 0) ("periodic", "constant", "constant") = .ok Λmap) (aHat : Nat → ℝ) (ha : ∀ i < nm, |aHat i| ≤ 1e-3) :
    drumK D (drumshapeMap (drumRadius Λmap aHat)) = 0 ∧ ∀ k, (getEvs D chol eigh Λmap aHat).1 k = 0 := by
  have hrad : ∀ χ, 0 ≤ χ → χ ≤ 1 → |drumRadius Λmap aHat χ| ≤ 1e-3 := fun χ h0 h1 => by
    obtain ⟨_, _, s0, _⟩ := Form.mk?_inv hm
    rw [drumRadius_eq hm]
    have := C88_periodic_range nm pm hp hnm hpn hfine _ s0 aHat (-1e-3) 1e-3 (fun i hi => abs_le.mp (ha i hi)) χ h0 h1
    exact abs_le.mpr this
  have hJ : ∀ x ∈ D.S.Q.x, 0 ≤ jacobianDeterminant (drumshapeMap (drumRadius Λmap aHat)) (toV3 x) ∧
      jacobianDeterminant (drumshapeMap (drumRadius Λmap aHat)) (toV3 x) < 1e-5 := fun x hx => by
    obtain ⟨a1, a2, a3, a4⟩ := points_inside h hr ht hx
    have b0 : (toV3 x) 0 = x.1 := rfl
    have b1 : (toV3 x) 1 = x.2.1 := rfl
    rcases drum_jacobian (drumRadius Λmap aHat) (x := toV3 x) (by rw [b0]; exact a1) with e | e
    · rw [e, b0, b1]
      have hb := hrad x.2.1 a3.le a4.le
      have hsq : drumRadius Λmap aHat x.2.1 ^ 2 ≤ 1e-6 := by
        rw [← sq_abs]
        have := abs_nonneg (drumRadius Λmap aHat x.2.1)
        nlinarith
      have hnn := sq_nonneg (drumRadius Λmap aHat x.2.1)
      have hpi := pi_lt_four
      have hpi0 := pi_pos
      have hpi3 := pi_lt_d2
      constructor
      · positivity
      · have t1 : 2 * π * drumRadius Λmap aHat x.2.1 ^ 2 ≤ 2 * 3.15 * 1e-6 := by
          have := mul_le_mul (show 2 * π ≤ 2 * 3.15 by linarith) hsq hnn (by norm_num)
          exact this
        have t2 : 2 * π * drumRadius Λmap aHat x.2.1 ^ 2 * x.1 ≤ 2 * 3.15 * 1e-6 * 1 :=
          mul_le_mul t1 a2.le a1.le (by norm_num)
        refine lt_of_le_of_lt t2 (by norm_num)
    · rw [e]; norm_num
  have hK : drumK D (drumshapeMap (drumRadius Λmap aHat)) = 0 := by
    have hG : ∀ j < D.nq, (Metric.ofMap (drumshapeMap (drumRadius Λmap aHat)) (D.S.Q.x.map toV3)).Ginv j = 0 := fun j hj => by
      obtain ⟨p1, p2⟩ := h.pointAt hj
      obtain ⟨u1, u2⟩ := hJ _ p2
      simp only [Metric.ofMap, List.getD_eq_getElem?_getD, p1]
      unfold inv33
      rw [if_pos]
      rw [inv33Det_metric, abs_sq_lt]
      change |jacobianDeterminant (drumshapeMap (drumRadius Λmap aHat)) (toV3 (D.S.point j))| < 1e-5
      rw [abs_of_nonneg u1]
      exact u2
    have e : assemble D.S.getDLambda0 D.S.getDLambda0 D.nq 3 (fun j => fun k l =>
          (Metric.ofMap (drumshapeMap (drumRadius Λmap aHat)) (D.S.Q.x.map toV3)).Ginv j k l
            * (Metric.ofMap (drumshapeMap (drumRadius Λmap aHat)) (D.S.Q.x.map toV3)).J j * D.w j) D.S.L0.dims.n D.S.L0.dims.n = 0 := by
      ext i i'
      unfold assemble
      refine sum_eq_zero fun j hj => sum_eq_zero fun k _ => sum_eq_zero fun l _ => ?_
      have := congrFun (congrFun (hG j (mem_range.mp hj)) k) l
      exact (congrArg (fun t => D.S.getDLambda0 i j k * (t * (Metric.ofMap (drumshapeMap (drumRadius Λmap aHat)) (D.S.Q.x.map toV3)).J j * D.w j)
        * D.S.getDLambda0 i' j l) this).trans (by simp)
    unfold drumK
    exact (congrArg (fun X => D.E0 * X * D.E0ᵀ) e).trans (by rw [Matrix.mul_zero, Matrix.zero_mul])
  refine ⟨hK, fun k => ?_⟩
  have hM : SPSD (drumM D (drumshapeMap (drumRadius Λmap aHat))) := by
    unfold drumM
    refine SPSD.congr (assemble_psd _ _ fun j hj => ?_) _
    obtain ⟨p1, p2⟩ := h.pointAt hj
    have u1 := (hJ _ p2).1
    have hw : 0 < D.w j := by
      unfold DeRham.w
      rw [List.getD_eq_getElem?_getD, List.getElem?_eq_getElem (show j < D.S.Q.w.length from hj)]
      exact h.quad.pos _ (List.getElem_mem _)
    have v : 0 ≤ (Metric.ofMap (drumshapeMap (drumRadius Λmap aHat)) (D.S.Q.x.map toV3)).J j * D.w j := by
      refine mul_nonneg ?_ hw.le
      simp only [Metric.ofMap, List.getD_eq_getElem?_getD, p1]
      exact u1
    refine ⟨rfl, fun x => ?_⟩
    have e : x ⬝ᵥ (fun _ _ => (Metric.ofMap (drumshapeMap (drumRadius Λmap aHat)) (D.S.Q.x.map toV3)).J j * D.w j : Matrix (Fin 1) (Fin 1) ℝ) *ᵥ x
        = (Metric.ofMap (drumshapeMap (drumRadius Λmap aHat)) (D.S.Q.x.map toV3)).J j * D.w j * (x 0) ^ 2 := by
      simp [dotProduct, mulVec]; ring
    rw [e]
    positivity
  have g := C90_generalized_eigh hs (A := drumK D (drumshapeMap (drumRadius Λmap aHat))) (by rw [hK, transpose_zero]) hM
  have c1 := g.col k
  have c2 := g.col_dot k k
  rw [if_pos rfl] at c2
  have := congrArg (fun v => (generalizedEigh chol eigh (drumK D (drumshapeMap (drumRadius Λmap aHat))) (drumM D (drumshapeMap (drumRadius Λmap aHat)))).2.col k ⬝ᵥ v) c1
  beta_reduce at this
  rw [dotProduct_smul, c2] at this
  nth_rw 2 [hK] at this
  rw [zero_mulVec, dotProduct_zero, smul_eq_mul, mul_one] at this
  exact this.symm

/-- Non-vacuity: for every disc discretisation there are round drums (of large radius) that are regular at all quadrature points. -/
theorem exists_round_drum (hq : q ≤ 10) (hr : DirOK ns.1 ps.1 q "clamped") (ht : DirOK ns.2.1 ps.2.1 q "periodic") (hz : DirOK ns.2.2 ps.2.2 q "constant")
    (h3 : 3 ≤ ns.1 ∧ 3 ≤ ns.2.1) (dirichlet : Bool) :
    ∃ (R : ℝ) (D : DeRham), 0 < R ∧ Admissible ns ps q ("clamped", "periodic", "constant") (drumshapeMap fun _ => R) true dirichlet D ∧
      ∀ c : ℝ, 1 ≤ c → ∀ x ∈ D.S.Q.x, 1e-5 ≤ c ^ 2 * jacobianDeterminant (drumshapeMap fun _ => R) (toV3 x) := by
  obtain ⟨D, h⟩ := Admissible.exists (ns := ns) (ps := ps) (q := q) (types := ("clamped", "periodic", "constant")) (fun y => y) true dirichlet hq hr ht hz
    (fun _ => ⟨rfl, rfl, by decide, h3.1, h3.2⟩) fun x => by rw [jacobianDeterminant_id]; norm_num
  have hpos : ∀ x ∈ D.S.Q.x, 0 < x.1 := fun x hx => (points_inside h rfl rfl hx).1
  obtain ⟨m, hm, hle⟩ : ∃ m : ℝ, 0 < m ∧ ∀ x ∈ D.S.Q.x, m ≤ x.1 := by
    generalize D.S.Q.x = l at hpos
    induction l with
    | nil => exact ⟨1, one_pos, by simp⟩
    | cons y l ih =>
      obtain ⟨m, hm, hl⟩ := ih fun x hx => hpos x (List.mem_cons_of_mem _ hx)
      refine ⟨min m y.1, lt_min hm (hpos y List.mem_cons_self), fun x hx => ?_⟩
      rcases List.mem_cons.mp hx with rfl | hx
      · exact min_le_right _ _
      · exact le_trans (min_le_left _ _) (hl x hx)
  obtain ⟨R, hR, hRm⟩ : ∃ R : ℝ, 0 < R ∧ 1 ≤ R ^ 2 * m := by
    refine ⟨Real.sqrt (1 / m), Real.sqrt_pos.mpr (by positivity), ?_⟩
    rw [Real.sq_sqrt (by positivity)]
    field_simp
    exact le_refl _
  have hJ : ∀ x ∈ D.S.Q.x, 1 ≤ jacobianDeterminant (drumshapeMap fun _ => R) (toV3 x) := fun x hx => by
    rw [C63_drumshape_jacobian (hasDerivAt_const _ R)]
    have := hle x hx
    change 1 ≤ 2 * π * R ^ 2 * x.1
    have h1 : 1 ≤ R ^ 2 * x.1 := le_trans hRm (by gcongr)
    nlinarith [pi_gt_three]
  refine ⟨R, withMap D (drumshapeMap fun _ => R), hR, withMap_admissible h fun x hx => le_trans (by norm_num) (hJ x hx), fun c hc x hx => ?_⟩
  have := hJ x hx
  nlinarith

/-- The script's sequence (8 × 8 × 1 splines of degree 3): a regular drum with positive frequencies, and the drum of twice the size. -/
example : ∃ (R : ℝ) (D : DeRham) (chol : _) (eigh : _), SolverOK (n := D.m0) chol eigh ∧
    Admissible (8, 8, 1) (3, 3, 0) 6 ("clamped", "periodic", "constant") (drumshapeMap fun _ => R) true true D ∧
    (∀ k, 0 < (generalizedEigh chol eigh (drumK D (drumshapeMap fun _ => R)) (drumM D (drumshapeMap fun _ => R))).1 k) ∧
    drumM D (drumshapeMap fun _ => 2 * R) = (2 : ℝ) ^ 2 • drumM D (drumshapeMap fun _ => R) := by
  obtain ⟨R, D, hR, h, hc⟩ := exists_round_drum (ns := (8, 8, 1)) (ps := (3, 3, 0)) (q := 6) (by norm_num) (by unfold DirOK; norm_num) (by unfold DirOK; norm_num)
    (by unfold DirOK; norm_num) (by norm_num) true
  obtain ⟨chol, eigh, hs⟩ := C90_solver_exists D.m0
  refine ⟨R, D, chol, eigh, hs, h, (C90_frequencies_positive_iff h h.regular hs).mpr (by norm_num), ?_⟩
  exact (C90_scaling_above_cutoff h rfl (fun _ => R) (c := 2) (by norm_num) fun x hx => ⟨h.regular x hx, hc 2 (by norm_num) x hx⟩).2.1

/-- Silent drums: the script's sequence and map space, all coefficients `1e-3`. -/
example : ∃ (D : DeRham) (chol : _) (eigh : _) (Λmap : Form ℝ), SolverOK (n := D.m0) chol eigh ∧
    Form.mk? 0 (8, 1, 1) (3, 0, 0) ("periodic", "constant", "constant") = .ok Λmap ∧ ∀ k, (getEvs D chol eigh Λmap fun _ => 1e-3).1 k = 0 := by
  obtain ⟨R, D, hR, h, hc⟩ := exists_round_drum (ns := (8, 8, 1)) (ps := (3, 3, 0)) (q := 6) (by norm_num) (by unfold DirOK; norm_num) (by unfold DirOK; norm_num)
    (by unfold DirOK; norm_num) (by norm_num) true
  obtain ⟨chol, eigh, hs⟩ := C90_solver_exists D.m0
  obtain ⟨S, hS⟩ := Seq.build (ns := (8, 1, 1)) (ps := (3, 0, 0)) (q := 6) (types := ("periodic", "constant", "constant")) (by unfold DirOK; norm_num)
    (by unfold DirOK; norm_num) (by unfold DirOK; norm_num)
  have hm := (Seq.mk?_inv hS).1
  exact ⟨D, chol, eigh, S.L0, hs, hm, (C90_small_drums_silent h rfl rfl hs (by norm_num) (by norm_num) (by norm_num) (by norm_num) hm _ fun i _ => by
    rw [abs_of_nonneg] <;> norm_num).2⟩

end geometry
end Mrx.Props
