import Verif.Props.LazyExact

/-!
# C90: the scaling law of drums, exactly

`get_evs` drops the quadrature points at which `det (DFᵀ DF) < 1e-10`, i.e. `det DF < 1e-5`. The law `λ(c a) = λ(a) / c²` of the exact problem holds for the computed
spectra exactly as long as no point that counts is dropped or taken up again by the scaling.
-/

set_option linter.unusedSectionVars false
set_option linter.unusedVariables false

namespace Mrx.Props
open Finset Spec Matrix DeRham

/-- Eigenvalues are monotone, and determine a matrix among those above it. -/
theorem geigh_rigid {n : Nat} {A A' M V V' : Matrix (Fin n) (Fin n) ℝ} {w w' : Fin n → ℝ} (h : IsGEigh A M w V) (h' : IsGEigh A' M w' V')
    (hA : Aᵀ = A) (hA' : A'ᵀ = A') (hM : SPD M) (hle : ∀ x, x ⬝ᵥ A *ᵥ x ≤ x ⬝ᵥ A' *ᵥ x) :
    (∀ k, w k ≤ w' k) ∧ ((∀ k, w' k = w k) ↔ A' = A) := by
  refine ⟨fun k => geigh_compare h h' hA hM hA' hM (fun x => mul_le_mul_of_nonneg_right (hle x) (hM.psd.2 x)) k, ?_, ?_⟩
  · intro he
    have inv : ∀ {B U : Matrix (Fin n) (Fin n) ℝ} {z : Fin n → ℝ}, IsGEigh B M z U → U * Uᵀ = M⁻¹ := by
      intro B U z hU
      have h1 : (Uᵀ * M) * U = 1 := hU.orth
      have h2 : U * (Uᵀ * M) = 1 := mul_eq_one_comm.1 h1
      rw [← Matrix.mul_assoc] at h2
      exact (Matrix.inv_eq_left_inv h2).symm
    have tr : ∀ {B U : Matrix (Fin n) (Fin n) ℝ} {z : Fin n → ℝ}, IsGEigh B M z U → trace (M⁻¹ * B) = ∑ k, z k := by
      intro B U z hU
      rw [← inv hU, Matrix.mul_assoc, Matrix.trace_mul_comm, Matrix.mul_assoc, hU.eig, ← Matrix.mul_assoc, ← Matrix.mul_assoc, hU.orth, Matrix.one_mul, trace_diagonal]
    have hP : SPSD (A' - A) := ⟨by rw [transpose_sub, hA, hA'], fun x => by rw [sub_mulVec, dotProduct_sub]; linarith [hle x]⟩
    have t0 : trace (M⁻¹ * (A' - A)) = 0 := by
      rw [Matrix.mul_sub, trace_sub, tr h', tr h, sub_eq_zero]
      exact Finset.sum_congr rfl fun k _ => he k
    rw [← inv h, Matrix.mul_assoc, Matrix.trace_mul_comm] at t0
    have hd : ∀ k, (Vᵀ * (A' - A) * V) k k = V.col k ⬝ᵥ (A' - A) *ᵥ V.col k := by
      intro k
      rw [Matrix.mul_assoc, Matrix.mul_apply]
      rfl
    have hz : ∀ k, V.col k ⬝ᵥ (A' - A) *ᵥ V.col k = 0 := by
      have hs : ∑ k, V.col k ⬝ᵥ (A' - A) *ᵥ V.col k = 0 := by
        rw [← t0]
        exact Finset.sum_congr rfl fun k _ => (hd k).symm
      exact fun k => (Finset.sum_eq_zero_iff_of_nonneg fun k _ => hP.2 _).1 hs k (mem_univ k)
    have hpm : (A' - A).PosSemidef := by
      refine Matrix.PosSemidef.of_dotProduct_mulVec_nonneg (by rw [Matrix.IsHermitian, conjTranspose_eq_transpose_of_trivial]; exact hP.1) fun x => ?_
      simpa using hP.2 x
    have hk : ∀ k, (A' - A) *ᵥ V.col k = 0 := fun k => (hpm.dotProduct_mulVec_zero_iff (V.col k)).1 (by simpa using hz k)
    have hV : (A' - A) * V = 0 := by
      ext i k
      exact congrFun (hk k) i
    have h1 : (Vᵀ * M) * V = 1 := h.orth
    have h2 : V * (Vᵀ * M) = 1 := mul_eq_one_comm.1 h1
    have := congrArg (fun X => X * (Vᵀ * M)) hV
    simp only [Matrix.zero_mul] at this
    rw [Matrix.mul_assoc, h2, Matrix.mul_one, sub_eq_zero] at this
    exact this
  · rintro rfl k
    exact congrFun (geigh_unique h' h hA' hM) k

section
variable {ns ps : Nat × Nat × Nat} {q : Nat} {types : String × String × String} {F0 : V3 → V3} {polar dirichlet : Bool} {D : DeRham}

/-- At the quadrature points. -/
theorem drum_at (h : Admissible ns ps q types F0 polar dirichlet D) (a : ℝ → ℝ) {j : Nat} (hj : j < D.nq) :
    (Metric.ofMap (drumshapeMap a) (D.S.Q.x.map toV3)).J j = (jacfwd (drumshapeMap a) (toV3 (D.S.point j))).det ∧
    (Metric.ofMap (drumshapeMap a) (D.S.Q.x.map toV3)).Ginv j = inv33 ((jacfwd (drumshapeMap a) (toV3 (D.S.point j)))ᵀ * jacfwd (drumshapeMap a) (toV3 (D.S.point j))) := by
  obtain ⟨p1, p2⟩ := h.pointAt hj
  simp only [Metric.ofMap, List.getD_eq_getElem?_getD, p1]
  exact ⟨rfl, rfl⟩

theorem drum_det (a : ℝ → ℝ) {c : ℝ} (hc : c ≠ 0) (x : V3) :
    (jacfwd (drumshapeMap fun χ => c * a χ) x).det = c ^ 2 * (jacfwd (drumshapeMap a) x).det := by
  rw [jacfwd_drum_scale a hc x, det_mul, det_diagonal, Fin.prod_univ_three]; change c * 1 * c * _ = _; ring

/-- **C90** the mass matrix of the scaled drum, without any restriction. -/
theorem drum_mass_scale (h : Admissible ns ps q types F0 polar dirichlet D) (a : ℝ → ℝ) {c : ℝ} (hc : c ≠ 0) :
    drumM D (drumshapeMap fun χ => c * a χ) = c ^ 2 • drumM D (drumshapeMap a) := by
  have e : assemble D.S.getLambda0 D.S.getLambda0 D.nq 1 (fun j => fun _ _ =>
        (Metric.ofMap (drumshapeMap fun χ => c * a χ) (D.S.Q.x.map toV3)).J j * D.w j) D.S.L0.dims.n D.S.L0.dims.n
      = c ^ 2 • assemble D.S.getLambda0 D.S.getLambda0 D.nq 1 (fun j => fun _ _ =>
        (Metric.ofMap (drumshapeMap a) (D.S.Q.x.map toV3)).J j * D.w j) D.S.L0.dims.n D.S.L0.dims.n := by
    ext i i'
    rw [Matrix.smul_apply]
    unfold assemble
    rw [smul_eq_mul, mul_sum]
    refine sum_congr rfl fun j hj => ?_
    rw [mul_sum]
    refine sum_congr rfl fun k _ => ?_
    rw [mul_sum]
    refine sum_congr rfl fun l _ => ?_
    have hj' := mem_range.1 hj
    have hJ : (Metric.ofMap (drumshapeMap fun χ => c * a χ) (D.S.Q.x.map toV3)).J j = c ^ 2 * (Metric.ofMap (drumshapeMap a) (D.S.Q.x.map toV3)).J j := by
      rw [(drum_at h _ hj').1, (drum_at h _ hj').1, drum_det a hc]
    exact (congrArg (fun t => D.S.getLambda0 i j k * (t * D.w j) * D.S.getLambda0 i' j l) hJ).trans (by ring)
  unfold drumM
  refine (congrArg (fun X => D.E0 * X * D.E0ᵀ) e).trans ?_
  beta_reduce
  rw [Matrix.mul_smul, smul_mul]

theorem drum_mass_spd (h : Admissible ns ps q types F0 polar dirichlet D) {F : V3 → V3} (hJ : ∀ x ∈ D.S.Q.x, 0 < jacobianDeterminant F (toV3 x)) : SPD (drumM D F) := by
  unfold drumM
  refine (DeRham.assemble_spd h.core (fun j hj => DeRham.spd_one ?_) (Seq.zero0 h.core.q)).congr D.E0 h.core.e0
  refine mul_pos ?_ (DeRham.w_pos h.core hj)
  obtain ⟨p1, p2⟩ := h.pointAt hj
  simp only [Metric.ofMap, List.getD_eq_getElem?_getD, p1]
  exact hJ _ p2

open Classical in
/-- Enlarging a drum: the stiffness matrix grows by the points that are taken up. -/
theorem drum_grow (h : Admissible ns ps q types F0 polar dirichlet D) (hz : types.2.2 = "constant") (a : ℝ → ℝ) {c : ℝ} (hc : 1 ≤ c ^ 2)
    (hJ : ∀ x ∈ D.S.Q.x, 0 < jacobianDeterminant (drumshapeMap a) (toV3 x)) :
    (∀ u, u ⬝ᵥ drumK D (drumshapeMap a) *ᵥ u ≤ u ⬝ᵥ drumK D (drumshapeMap fun χ => c * a χ) *ᵥ u) ∧
    (drumK D (drumshapeMap a))ᵀ = drumK D (drumshapeMap a) ∧
    (drumK D (drumshapeMap fun χ => c * a χ))ᵀ = drumK D (drumshapeMap fun χ => c * a χ) ∧
    (drumK D (drumshapeMap fun χ => c * a χ) = drumK D (drumshapeMap a) ↔ ∀ j < D.nq, jacobianDeterminant (drumshapeMap a) (toV3 (D.S.point j)) < 1e-5 ∧
      1e-5 ≤ c ^ 2 * jacobianDeterminant (drumshapeMap a) (toV3 (D.S.point j)) → ∀ u : Fin D.m0 → ℝ, ∀ k < 3, evaluateAtXq D.S.getDLambda0 (D.E0ᵀ *ᵥ u) j k = 0) := by
  have hc0 : c ≠ 0 := by rintro rfl; norm_num at hc
  have hdz : D.S.L0.dΛ2.n ≤ 1 := by
    obtain ⟨m0, _⟩ := Seq.mk?_inv (Admissible.seq h.built)
    obtain ⟨_, hd, _⟩ := Form.mk?_inv m0
    rw [h.quad.wf.f0.dz, hd]
    have := h.z
    rw [hz] at this
    rcases this with ⟨e, _⟩ | ⟨e, _⟩ | ⟨_, e, _⟩
    · exact absurd e (by decide)
    · exact absurd e (by decide)
    · simp [Form.dsize, hz, e]
  obtain ⟨B, hB⟩ : ∃ B : Nat → Prop, B = fun j => jacobianDeterminant (drumshapeMap a) (toV3 (D.S.point j)) < 1e-5 ∧
      1e-5 ≤ c ^ 2 * jacobianDeterminant (drumshapeMap a) (toV3 (D.S.point j)) := ⟨_, rfl⟩
  obtain ⟨W, hW⟩ : ∃ W : (ℝ → ℝ) → Nat → M33, W = fun b j k l => (Metric.ofMap (drumshapeMap b) (D.S.Q.x.map toV3)).Ginv j k l *
      (Metric.ofMap (drumshapeMap b) (D.S.Q.x.map toV3)).J j * D.w j := ⟨_, rfl⟩
  have hK : ∀ b, drumK D (drumshapeMap b) = D.E0 * assemble D.S.getDLambda0 D.S.getDLambda0 D.nq 3 (W b) D.S.L0.dims.n D.S.L0.dims.n * D.E0ᵀ := by
    intro b; rw [hW]; rfl
  have hWs : ∀ b, ∀ j < D.nq, (W b j)ᵀ = W b j := by
    intro b j hj
    have hi := C21_inv33_transpose ((jacfwd (drumshapeMap b) (toV3 (D.S.point j)))ᵀ * jacfwd (drumshapeMap b) (toV3 (D.S.point j)))
    rw [transpose_mul, transpose_transpose] at hi
    have g : W b j = fun k l => inv33 ((jacfwd (drumshapeMap b) (toV3 (D.S.point j)))ᵀ * jacfwd (drumshapeMap b) (toV3 (D.S.point j))) k l *
        (Metric.ofMap (drumshapeMap b) (D.S.Q.x.map toV3)).J j * D.w j := by
      funext k l
      rw [hW]
      beta_reduce
      rw [(drum_at h b hj).2]
    rw [g]
    funext k l
    exact congrArg (fun t => t * (Metric.ofMap (drumshapeMap b) (D.S.Q.x.map toV3)).J j * D.w j) (congrFun (congrFun hi k) l).symm
  have hsym : ∀ b, (drumK D (drumshapeMap b))ᵀ = drumK D (drumshapeMap b) := by
    intro b
    rw [hK, transpose_mul, transpose_mul, transpose_transpose, assemble_transpose _ _ _ (hWs b), Matrix.mul_assoc]
  have hP : ∀ j < D.nq, B j → SPD (W (fun χ => c * a χ) j) := by
    intro j hj hBj
    rw [hB] at hBj
    obtain ⟨p1, p2⟩ := h.pointAt hj
    have hpos := hJ _ p2
    have hd := drum_det a hc0 (toV3 (D.S.point j))
    obtain ⟨A, hA⟩ : ∃ A, A = jacfwd (drumshapeMap fun χ => c * a χ) (toV3 (D.S.point j)) := ⟨_, rfl⟩
    have hdet : A.det = c ^ 2 * jacobianDeterminant (drumshapeMap a) (toV3 (D.S.point j)) := by rw [hA, hd]; rfl
    have hge : 1e-5 ≤ A.det := by rw [hdet]; exact hBj.2
    have hApos : 0 < A.det := lt_of_lt_of_le (by norm_num) hge
    have e := inv_metric A
    rw [if_neg (by rw [abs_of_pos hApos]; rintro ⟨-, h2⟩; exact absurd hge (not_le.2 h2)), add_zero,
      (inv33_regular (m := A) (by rw [abs_of_pos hApos, not_lt]; exact le_trans (by norm_num) hge)).1] at e
    have hs : SPD (inv33 (Aᵀ * A)) := by rw [← e]; exact spd_inv_gram hApos.ne'
    have : W (fun χ => c * a χ) j = fun k l => inv33 (Aᵀ * A) k l * (A.det * D.w j) := by
      funext k l
      rw [hW]
      beta_reduce
      rw [(drum_at h _ hj).1, (drum_at h _ hj).2, ← hA]; ring
    rw [this]
    exact DeRham.spd_smul hs (mul_pos hApos (DeRham.w_pos h.core hj))
  have eK : drumK D (drumshapeMap a) = D.E0 * assemble D.S.getDLambda0 D.S.getDLambda0 D.nq 3 (fun j => if B j then 0 else W (fun χ => c * a χ) j)
      D.S.L0.dims.n D.S.L0.dims.n * D.E0ᵀ := by
    rw [hK]
    congr 2
    ext i i'
    unfold assemble
    refine sum_congr rfl fun j hj => sum_congr rfl fun k _ => sum_congr rfl fun l _ => ?_
    have hj' := mem_range.1 hj
    by_cases hk : k = 2
    · subst hk
      have := D.S.getD0_two hdz i j
      change D.S.getDLambda0 i j 2 * _ * _ = D.S.getDLambda0 i j 2 * _ * _
      rw [this]; ring
    by_cases hl : l = 2
    · subst hl
      have := D.S.getD0_two hdz i' j
      change _ * D.S.getDLambda0 i' j 2 = _ * D.S.getDLambda0 i' j 2
      rw [this]; ring
    have e : W a j k l = (if B j then 0 else W (fun χ => c * a χ) j) k l := by
      obtain ⟨p1, p2⟩ := h.pointAt hj'
      have hpos : 0 < (jacfwd (drumshapeMap a) (toV3 (D.S.point j))).det := hJ _ p2
      by_cases hBj : B j
      · rw [if_pos hBj]
        rw [hB] at hBj
        rw [hW]
        beta_reduce
        rw [(drum_at h a hj').2, C21_inv33_zero_below_threshold _ (by
          rw [det_mul, det_transpose, ← sq, abs_sq_lt, abs_of_pos hpos]; exact hBj.1)]
        simp
      · rw [if_neg hBj]
        rw [hB] at hBj
        have w := drum_weight a hc0 (toV3 (D.S.point j)) (by
          rw [abs_of_pos hpos]
          constructor
          · intro h1
            by_contra h2
            exact hBj ⟨h1, not_lt.1 h2⟩
          · intro h1
            nlinarith)
        have := w.2 k l hk hl
        rw [hW]
        beta_reduce
        rw [(drum_at h a hj').1, (drum_at h a hj').2, (drum_at h _ hj').1, (drum_at h _ hj').2, this]
    rw [e]
  have hsplit : ∀ j < D.nq, W (fun χ => c * a χ) j = (if B j then 0 else W (fun χ => c * a χ) j) + if B j then W (fun χ => c * a χ) j else 0 := by
    intro j _
    by_cases hBj : B j
    · rw [if_pos hBj, if_pos hBj, zero_add]
    · rw [if_neg hBj, if_neg hBj, add_zero]
  refine ⟨fun u => ?_, hsym a, hsym _, ?_⟩
  · rw [eK, hK, sandwich_dot, sandwich_dot]
    refine Finset.sum_le_sum fun j hj => ?_
    by_cases hBj : B j
    · rw [if_pos hBj, zero_mulVec, dotProduct_zero]
      exact (hP j (mem_range.1 hj) hBj).psd.2 _
    · rw [if_neg hBj]
  · have hg := weights_gap D.S.getDLambda0 D.S.getDLambda0 (fun j => if B j then 0 else W (fun χ => c * a χ) j) (W fun χ => c * a χ) (W fun χ => c * a χ) B hsplit hP
      D.E0 D.E0 (fun v => ⟨v, fun _ _ _ _ => rfl⟩)
    rw [eK, hK, hg, hB]

theorem drum_geigh_smul {n : Nat} {A M V : Matrix (Fin n) (Fin n) ℝ} {w : Fin n → ℝ} {c : ℝ} (hc : c ≠ 0) (h : IsGEigh A (c ^ 2 • M) w V) :
    IsGEigh A M (fun k => c ^ 2 * w k) (c • V) := by
  have hc2 : (0 : ℝ) < c ^ 2 := by positivity
  refine ⟨?_, ?_, fun i j hij => mul_le_mul_of_nonneg_left (h.sorted hij) hc2.le⟩
  · have := h.orth
    rw [Matrix.mul_smul, smul_mul] at this
    rw [transpose_smul, smul_mul, smul_mul, Matrix.mul_smul, smul_smul, ← sq]
    exact this
  · have := h.eig
    have e : diagonal (fun k => c ^ 2 * w k) = c ^ 2 • diagonal w := by rw [← diagonal_smul]; rfl
    rw [Matrix.mul_smul, this, e, Matrix.mul_smul, Matrix.mul_smul, smul_mul, smul_mul, smul_mul, smul_comm c]

/-- The quadrature points that count for one of the drums `a` and `c a`, and not for the other. -/
def CutOffChanges (a : ℝ → ℝ) (c : ℝ) (x : ℝ × ℝ × ℝ) : Prop :=
  jacobianDeterminant (drumshapeMap a) (toV3 x) < 1e-5 ∧ 1e-5 ≤ jacobianDeterminant (drumshapeMap fun χ => c * a χ) (toV3 x) ∨
  jacobianDeterminant (drumshapeMap fun χ => c * a χ) (toV3 x) < 1e-5 ∧ 1e-5 ≤ jacobianDeterminant (drumshapeMap a) (toV3 x)

theorem scale_back (a : ℝ → ℝ) {c : ℝ} (hc : c ≠ 0) : (fun χ => c⁻¹ * (c * a χ)) = a := by
  funext χ; rw [← mul_assoc, inv_mul_cancel₀ hc, one_mul]

/-- **C90** the scaling law (exact discrete spectra of the matrices assembled by `get_evs`): for every drum with positive Jacobian at the quadrature points and every `c ≠ 0`, the
eigenvalues of the drum `c a` are those of `a` divided by `c²`, all of them, exactly if every function of the space has zero gradient at the quadrature points that are cut off for one of
the two drums only. In particular if there are no such points. Enlarging a drum never lowers `c² λ`. -/
theorem C90_scaling (h : Admissible ns ps q types F0 polar dirichlet D) (hz : types.2.2 = "constant") (a : ℝ → ℝ) {c : ℝ} (hc : c ≠ 0)
    (hJ : ∀ x ∈ D.S.Q.x, 0 < jacobianDeterminant (drumshapeMap a) (toV3 x)) {w w' : Fin D.m0 → ℝ} {V V' : Matrix (Fin D.m0) (Fin D.m0) ℝ}
    (hV : IsGEigh (drumK D (drumshapeMap a)) (drumM D (drumshapeMap a)) w V)
    (hV' : IsGEigh (drumK D (drumshapeMap fun χ => c * a χ)) (drumM D (drumshapeMap fun χ => c * a χ)) w' V') :
    ((∀ k, w' k = w k / c ^ 2) ↔ ∀ j < D.nq, CutOffChanges a c (D.S.point j) → ∀ u : Fin D.m0 → ℝ, ∀ k < 3, evaluateAtXq D.S.getDLambda0 (D.E0ᵀ *ᵥ u) j k = 0) ∧
    (1 ≤ c ^ 2 → ∀ k, w k / c ^ 2 ≤ w' k) := by
  have hc2 : (0 : ℝ) < c ^ 2 := by positivity
  have hm := drum_mass_spd h hJ
  have dd : ∀ x, jacobianDeterminant (drumshapeMap fun χ => c * a χ) (toV3 x) = c ^ 2 * jacobianDeterminant (drumshapeMap a) (toV3 x) := fun x => drum_det a hc _
  have div : ∀ k, w' k = w k / c ^ 2 ↔ c ^ 2 * w' k = w k := fun k => by
    rw [eq_div_iff hc2.ne', mul_comm]
  have hV2 := drum_geigh_smul hc (drum_mass_scale h a hc ▸ hV')
  by_cases h1 : 1 ≤ c ^ 2
  · obtain ⟨hle, s1, s2, hiff⟩ := drum_grow h hz a h1 hJ
    obtain ⟨r1, r2⟩ := geigh_rigid hV hV2 s1 s2 hm hle
    refine ⟨?_, fun _ k => ?_⟩
    · rw [forall_congr' div, r2, hiff]
      refine forall_congr' fun j => forall_congr' fun hj => ?_
      have hpos := hJ _ (h.pointAt hj).2
      unfold CutOffChanges
      rw [dd]
      constructor
      · rintro hh (hx | hx)
        · exact hh hx
        · exact absurd hx.1 (by nlinarith)
      · exact fun hh hx => hh (.inl hx)
    · rw [div_le_iff₀ hc2, mul_comm]; exact r1 k
  · refine ⟨?_, fun hx => absurd hx h1⟩
    have hJ' : ∀ x ∈ D.S.Q.x, 0 < jacobianDeterminant (drumshapeMap fun χ => c * a χ) (toV3 x) := fun x hx => by
      rw [dd]; exact mul_pos hc2 (hJ x hx)
    have hci : 1 ≤ (c⁻¹) ^ 2 := by
      rw [inv_pow]; exact (one_le_inv₀ hc2).2 (not_le.1 h1).le
    obtain ⟨hle, s1, s2, hiff⟩ := drum_grow h hz (fun χ => c * a χ) hci hJ'
    rw [scale_back a hc] at hle s2 hiff
    obtain ⟨r1, r2⟩ := geigh_rigid hV2 hV s1 s2 hm hle
    rw [forall_congr' div, show (∀ k, c ^ 2 * w' k = w k) ↔ ∀ k, w k = c ^ 2 * w' k from forall_congr' fun k => eq_comm, r2, hiff]
    refine forall_congr' fun j => forall_congr' fun hj => ?_
    have hpos := hJ _ (h.pointAt hj).2
    unfold CutOffChanges
    rw [dd, ← mul_assoc, ← mul_pow, inv_mul_cancel₀ hc, one_pow, one_mul]
    constructor
    · rintro hh (hx | hx)
      · exact absurd hx.1 (by nlinarith)
      · exact hh hx
    · exact fun hh hx => hh (.inr hx)

end

/-- The hypotheses are met by the drum of the script, and there the law holds for `c = 2`. -/
example : ∃ (R : ℝ) (D : DeRham), Admissible (8, 8, 1) (3, 3, 0) 6 ("clamped", "periodic", "constant") (drumshapeMap fun _ => R) true true D ∧
    (∀ x ∈ D.S.Q.x, 0 < jacobianDeterminant (drumshapeMap fun _ => R) (toV3 x)) ∧ ∀ x ∈ D.S.Q.x, ¬ CutOffChanges (fun _ => R) 2 x := by
  obtain ⟨R, D, hR, h, hc⟩ := exists_round_drum (ns := (8, 8, 1)) (ps := (3, 3, 0)) (q := 6) (by norm_num) (by unfold DirOK; norm_num) (by unfold DirOK; norm_num)
    (by unfold DirOK; norm_num) (by norm_num) true
  refine ⟨R, D, h, fun x hx => lt_of_lt_of_le (by norm_num) (h.regular x hx), fun x hx => ?_⟩
  have h1 := h.regular x hx
  have h2 := hc 2 (by norm_num) x hx
  have e : jacobianDeterminant (drumshapeMap fun _ => 2 * R) (toV3 x) = 2 ^ 2 * jacobianDeterminant (drumshapeMap fun _ => R) (toV3 x) :=
    drum_det (fun _ => R) (c := 2) (by norm_num) _
  unfold CutOffChanges
  rw [e]
  rintro (hx' | hx')
  · exact absurd h1 (not_le.2 hx'.1)
  · exact absurd h2 (not_le.2 hx'.1)

end Mrx.Props
