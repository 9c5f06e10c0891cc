import Verif.Proofs.Case
import Verif.Proofs.Cover
import Verif.Props.Lazy
import Verif.Props.Drum

/-!
# C37: for which maps the lazily assembled matrices equal the assembled ones

Both implementations replace the inverse of a nearly singular 3x3 matrix by zero. The lazy matrices do so when `|det DF| < 1e-10`, the assembled ones when
`det (DFᵀ DF) < 1e-10`, that is `|det DF| < 1e-5`. So exactly the quadrature points with `1e-10 ≤ det DF < 1e-5` count in one and not in the other.
-/

set_option linter.unusedSectionVars false
set_option linter.unusedVariables false

namespace Mrx.Props
open Finset Spec Matrix DeRham

/-- A `DeRhamSequence` built with admissible sizes, for any map. -/
structure Sized (ns ps : Nat × Nat × Nat) (q : Nat) (types : String × String × String) (F : V3 → V3) (polar dirichlet : Bool) (D : DeRham) : Prop where
  built : DeRham.mk? ns ps q types F polar dirichlet = .ok D
  q10 : q ≤ 10
  r : DirOK ns.1 ps.1 q types.1
  t : DirOK ns.2.1 ps.2.1 q types.2.1
  z : DirOK ns.2.2 ps.2.2 q types.2.2
  polar : polar = true → types.1 = "clamped" ∧ types.2.1 = "periodic" ∧ types.2.2 ≠ "clamped" ∧ 3 ≤ ns.1 ∧ 3 ≤ ns.2.1

/-- The quadrature points that count in the lazy matrices and not in the assembled ones. -/
def BetweenCutoffs (F : V3 → V3) (x : ℝ × ℝ × ℝ) : Prop := 1e-10 ≤ jacobianDeterminant F (toV3 x) ∧ jacobianDeterminant F (toV3 x) < 1e-5

section
variable {ns ps : Nat × Nat × Nat} {q : Nat} {types : String × String × String} {F : V3 → V3} {polar dirichlet : Bool} {D : DeRham}

theorem Sized.base (h : Sized ns ps q types F polar dirichlet D) : Admissible ns ps q types (fun y => y) polar dirichlet (withMap D fun y => y) :=
  ⟨(C90_same_as_sequence h.built _).1, h.q10, h.r, h.t, h.z, h.polar, fun x _ => by rw [jacobianDeterminant_id]; norm_num⟩

theorem Sized.at (h : Sized ns ps q types F polar dirichlet D) {j : Nat} (hj : j < D.nq) :
    D.g.J j = lazyJ F (D.S.point j) ∧ D.g.G j = (lazyDF F (D.S.point j))ᵀ * lazyDF F (D.S.point j) ∧
      D.g.Ginv j = inv33 ((lazyDF F (D.S.point j))ᵀ * lazyDF F (D.S.point j)) ∧ D.S.point j ∈ D.S.Q.x ∧ 0 < D.w j := by
  obtain ⟨a, b⟩ := h.base.pointAt (j := j) hj
  have e : (D.S.Q.x.map toV3).getD j 0 = toV3 (D.S.point j) := by
    rw [List.getD_eq_getElem?_getD]
    exact congrArg (fun o => Option.getD o 0) a
  obtain ⟨hg, -⟩ := Admissible.metric h.built
  rw [hg]
  simp only [Metric.ofMap]
  rw [e]
  refine ⟨rfl, rfl, rfl, b, ?_⟩
  exact DeRham.w_pos h.base.core hj

theorem inv_metric (A : M33) : inv33 A * (inv33 A)ᵀ = inv33 (Aᵀ * A) + (if 1e-10 ≤ |A.det| ∧ |A.det| < 1e-5 then A⁻¹ * (A⁻¹)ᵀ else 0) := by
  have hdm : (Aᵀ * A).det = A.det ^ 2 := by rw [det_mul, det_transpose]; ring
  by_cases h1 : |A.det| < 1e-10
  · rw [C21_inv33_zero_below_threshold A h1, C21_inv33_zero_below_threshold (Aᵀ * A) (by
      rw [hdm, abs_sq_lt]; exact lt_trans h1 (by norm_num)), if_neg (fun hh => absurd h1 (not_lt.2 hh.1))]
    simp
  · obtain ⟨e1, hd⟩ := inv33_regular h1
    by_cases h2 : |A.det| < 1e-5
    · rw [C21_inv33_zero_below_threshold (Aᵀ * A) (by rw [hdm, abs_sq_lt]; exact h2), if_pos ⟨not_lt.1 h1, h2⟩, e1, zero_add]
    · rw [(inv33_regular (m := Aᵀ * A) (by rw [hdm, abs_sq_lt]; exact h2)).1, if_neg (fun hh => h2 hh.2), e1, add_zero, Matrix.mul_inv_rev, Matrix.transpose_nonsing_inv]

theorem spd_inv_gram {A : M33} (hd : A.det ≠ 0) : SPD (A⁻¹ * (A⁻¹)ᵀ) := by
  refine ⟨by rw [transpose_mul, transpose_transpose], fun x hx => ?_⟩
  rw [← mulVec_mulVec, dotProduct_mulVec, ← mulVec_transpose]
  have hne : (A⁻¹)ᵀ *ᵥ x ≠ 0 := by
    intro h0
    apply hx
    have := congrArg (fun y => Aᵀ *ᵥ y) h0
    simp only [mulVec_zero] at this
    rw [mulVec_mulVec, ← transpose_mul, nonsing_inv_mul A hd.isUnit, transpose_one, one_mulVec] at this
    exact this
  have := dotProduct_self_star_pos_iff.mpr hne
  simpa using this

open Classical in
/-- The weights of the lazy matrices. -/
theorem Sized.weights (h : Sized ns ps q types F polar dirichlet D) (hJ : ∀ x ∈ D.S.Q.x, 0 < jacobianDeterminant F (toV3 x)) {j : Nat} (hj : j < D.nq) :
    D.W0 j = (lazyJ F (D.S.point j) * D.w j) • 1 ∧
    (lazyJ F (D.S.point j) * D.w j) • (((inv33 (lazyDF F (D.S.point j)))ᵀ)ᵀ * (inv33 (lazyDF F (D.S.point j)))ᵀ) =
      D.W1 j + (if BetweenCutoffs F (D.S.point j) then
        (lazyJ F (D.S.point j) * D.w j) • ((lazyDF F (D.S.point j))⁻¹ * ((lazyDF F (D.S.point j))⁻¹)ᵀ) else 0) ∧
    D.W2 j = (1 / lazyJ F (D.S.point j) * D.w j) • ((lazyDF F (D.S.point j))ᵀ * lazyDF F (D.S.point j)) ∧
    D.W3 j = (1 / lazyJ F (D.S.point j) * D.w j) • 1 ∧
    SPD ((lazyJ F (D.S.point j) * D.w j) • ((lazyDF F (D.S.point j))⁻¹ * ((lazyDF F (D.S.point j))⁻¹)ᵀ)) := by
  obtain ⟨eJ, eG, eGi, hx, hw⟩ := h.at hj
  have hpos : 0 < (lazyDF F (D.S.point j)).det := hJ _ hx
  refine ⟨?_, ?_, ?_, ?_, spd_smul (mul_pos hpos hw) (spd_inv_gram hpos.ne')⟩
  · ext a b; rw [Subsingleton.elim a b]; simp [W0, eJ]
  · rw [transpose_transpose, inv_metric, ← eGi, smul_add]
    congr 1
    · ext a b; simp [W1, eJ]; ring
    · unfold BetweenCutoffs
      rw [abs_of_pos hpos]
      split_ifs with h1 h2 h2
      · rfl
      · exact absurd h1 h2
      · exact absurd h2 h1
      · exact smul_zero _
  · rw [← eG]; ext a b; simp [W2, eJ]; ring
  · ext a b; rw [Subsingleton.elim a b]; simp [W3, eJ]

theorem sandwich_dot {n0 n1 m0 m1 nq d : Nat} (g1 g2 : Getter) (W : Nat → Matrix (Fin d) (Fin d) ℝ) (E0 : Matrix (Fin m0) (Fin n0) ℝ) (E1 : Matrix (Fin m1) (Fin n1) ℝ)
    (u : Fin m1 → ℝ) (v : Fin m0 → ℝ) :
    u ⬝ᵥ (E1 * assemble g1 g2 nq d W n1 n0 * E0ᵀ) *ᵥ v = ∑ j ∈ range nq,
      (fun k : Fin d => evaluateAtXq g1 (E1ᵀ *ᵥ u) j k) ⬝ᵥ W j *ᵥ (fun k : Fin d => evaluateAtXq g2 (E0ᵀ *ᵥ v) j k) := by
  rw [← assemble_dot, ← mulVec_mulVec, ← mulVec_mulVec, dotProduct_mulVec, ← mulVec_transpose]

theorem eq_of_dot {m0 m1 : Nat} {A B : Matrix (Fin m1) (Fin m0) ℝ} (h : ∀ u v, u ⬝ᵥ A *ᵥ v = u ⬝ᵥ B *ᵥ v) : A = B := by
  ext i j
  have := h (Pi.single i 1) (Pi.single j 1)
  simpa using this

/-- Two assembled matrices whose weights differ by positive definite matrices at some quadrature points are equal exactly if all fields that are lifts vanish there. -/
theorem weights_gap {n0 n1 m0 m1 nq d : Nat} (g1 g2 : Getter) (W W' P : Nat → Matrix (Fin d) (Fin d) ℝ) (B : Nat → Prop) [DecidablePred B]
    (hW : ∀ j < nq, W' j = W j + if B j then P j else 0) (hP : ∀ j < nq, B j → SPD (P j)) (E0 : Matrix (Fin m0) (Fin n0) ℝ) (E1 : Matrix (Fin m1) (Fin n1) ℝ)
    (lift : ∀ v, ∃ u, ∀ j < nq, ∀ k < d, evaluateAtXq g1 (E1ᵀ *ᵥ u) j k = evaluateAtXq g2 (E0ᵀ *ᵥ v) j k) :
    E1 * assemble g1 g2 nq d W' n1 n0 * E0ᵀ = E1 * assemble g1 g2 nq d W n1 n0 * E0ᵀ ↔
      ∀ j < nq, B j → ∀ v, ∀ k < d, evaluateAtXq g2 (E0ᵀ *ᵥ v) j k = 0 := by
  have split : ∀ (u : Fin m1 → ℝ) v, u ⬝ᵥ (E1 * assemble g1 g2 nq d W' n1 n0 * E0ᵀ) *ᵥ v = u ⬝ᵥ (E1 * assemble g1 g2 nq d W n1 n0 * E0ᵀ) *ᵥ v +
      ∑ j ∈ range nq, (fun k : Fin d => evaluateAtXq g1 (E1ᵀ *ᵥ u) j k) ⬝ᵥ (if B j then P j else 0) *ᵥ (fun k : Fin d => evaluateAtXq g2 (E0ᵀ *ᵥ v) j k) := by
    intro u v
    rw [sandwich_dot, sandwich_dot, ← Finset.sum_add_distrib]
    refine Finset.sum_congr rfl fun j hj => ?_
    rw [hW j (mem_range.1 hj), add_mulVec, dotProduct_add]
  constructor
  · intro he j hj hB v k hk
    obtain ⟨u, hu⟩ := lift v
    have hs := split u v
    rw [he] at hs
    have hsum := left_eq_add.1 hs
    have hnn : ∀ j ∈ range nq, 0 ≤ (fun k : Fin d => evaluateAtXq g1 (E1ᵀ *ᵥ u) j k) ⬝ᵥ (if B j then P j else 0) *ᵥ (fun k : Fin d => evaluateAtXq g2 (E0ᵀ *ᵥ v) j k) := by
      intro j hj
      have ef : (fun k : Fin d => evaluateAtXq g1 (E1ᵀ *ᵥ u) j k) = fun k : Fin d => evaluateAtXq g2 (E0ᵀ *ᵥ v) j k := funext fun k => hu j (mem_range.1 hj) k k.2
      rw [ef]
      split_ifs with hB
      · exact (hP j (mem_range.1 hj) hB).psd.2 _
      · simp
    have hz := (Finset.sum_eq_zero_iff_of_nonneg hnn).1 hsum j (mem_range.2 hj)
    have ef : (fun k : Fin d => evaluateAtXq g1 (E1ᵀ *ᵥ u) j k) = fun k : Fin d => evaluateAtXq g2 (E0ᵀ *ᵥ v) j k := funext fun k => hu j hj k k.2
    rw [ef, if_pos hB] at hz
    have h0 : (fun k : Fin d => evaluateAtXq g2 (E0ᵀ *ᵥ v) j k) = 0 := by
      by_contra hne
      exact absurd hz ((hP j hj hB).2 _ hne).ne'
    exact congrFun h0 ⟨k, hk⟩
  · intro hz
    refine eq_of_dot fun u v => ?_
    rw [split, Finset.sum_eq_zero, add_zero]
    intro j hj
    by_cases hB : B j
    · have h0 : (fun k : Fin d => evaluateAtXq g2 (E0ᵀ *ᵥ v) j k) = 0 := funext fun k => hz j (mem_range.1 hj) hB v k k.2
      rw [h0, mulVec_zero, dotProduct_zero]
    · rw [if_neg hB, zero_mulVec, dotProduct_zero]

theorem Sized.points (h : Sized ns ps q types F polar dirichlet D) (P : ℝ × ℝ × ℝ → Prop) : (∀ j < D.nq, P (D.S.point j)) ↔ ∀ x ∈ D.S.Q.x, P x := by
  constructor
  · intro hp x hx
    obtain ⟨j, hj, rfl⟩ := List.getElem_of_mem hx
    have hl : D.S.Q.x.length = D.nq := h.base.points_len
    have := hp j (hl ▸ hj)
    unfold Seq.point at this
    rwa [List.getD_eq_getElem?_getD, List.getElem?_eq_getElem hj] at this
  · exact fun hp j hj => hp _ (h.at hj).2.2.2.1

/-- **C37** `LazyMassMatrix(Λk, Q, F, Ek).matrix()` is the mass matrix `Mk` for `k = 0, 2, 3`, for every map with positive Jacobian; for `k = 1` exactly if the Jacobian is at no
quadrature point between the cut-offs `1e-10` and `1e-5` of the two implementations. -/
theorem C37_lazy_mass (h : Sized ns ps q types F polar dirichlet D) (hJ : ∀ x ∈ D.S.Q.x, 0 < jacobianDeterminant F (toV3 x)) :
    lazyMatrix (lazyMass D.S.Q F D.S.L0) D.E0 D.E0 = D.M0 ∧
    (lazyMatrix (lazyMass D.S.Q F D.S.L1) D.E1 D.E1 = D.M1 ↔ ∀ x ∈ D.S.Q.x, ¬ BetweenCutoffs F x) ∧
    lazyMatrix (lazyMass D.S.Q F D.S.L2) D.E2 D.E2 = D.M2 ∧ lazyMatrix (lazyMass D.S.Q F D.S.L3) D.E3 D.E3 = D.M3 := by
  classical
  have hb := h.base
  have k0 : D.S.L0.dims.k = 0 := hb.degrees.1
  have k1 : D.S.L1.dims.k = 1 := hb.degrees.2.1
  have k2 : D.S.L2.dims.k = 2 := hb.degrees.2.2.1
  have k3 : D.S.L3.dims.k = 3 := hb.degrees.2.2.2
  refine ⟨?_, ?_, ?_, ?_⟩
  · rw [show lazyMass D.S.Q F D.S.L0 = lazyMass0 D.S.Q F D.S.L0 by unfold lazyMass; rw [k0]; rfl]
    exact lazy_eq_one D _ _ _ _ _ _ D.E0 D.E0 (fun j hj => (h.weights hJ hj).1)
      (fun j hj u i => Or.inr ((lazy_values hb hj).1 i)) (fun j hj u i => Or.inr ((lazy_values hb hj).1 i))
  · rw [show lazyMass D.S.Q F D.S.L1 = lazyMass1 D.S.Q F D.S.L1 by unfold lazyMass; rw [k1]; rfl]
    have e : lazyMatrix (lazyMass1 D.S.Q F D.S.L1) D.E1 D.E1 = D.E1 * assemble D.S.getLambda1 D.S.getLambda1 D.nq 3
        (fun j => (lazyJ F (D.S.point j) * D.w j) • (((inv33 (lazyDF F (D.S.point j)))ᵀ)ᵀ * (inv33 (lazyDF F (D.S.point j)))ᵀ)) D.S.L1.dims.n D.S.L1.dims.n * D.E1ᵀ :=
      lazy_eq D _ _ _ _ _ _ _ D.E1 D.E1 (fun j hj => rfl)
        (fun j hj u i => Or.inr ((lazy_values hb hj).2.1 i)) (fun j hj u i => Or.inr ((lazy_values hb hj).2.1 i))
    rw [e]
    have hg := weights_gap D.S.getLambda1 D.S.getLambda1 D.W1 _ _ (fun j => BetweenCutoffs F (D.S.point j)) (fun j hj => (h.weights hJ hj).2.1)
      (fun j hj _ => (h.weights hJ hj).2.2.2.2) D.E1 D.E1 (fun v => ⟨v, fun _ _ _ _ => rfl⟩)
    refine Iff.trans hg ?_
    rw [← h.points fun x => ¬ BetweenCutoffs F x]
    constructor
    · intro hz j hj hB
      obtain ⟨u, k, hk, hne⟩ := cover1 hb (j := j) hj
      exact hne (hz j hj hB u k hk)
    · exact fun hz j hj hB => absurd hB (hz j hj)
  · rw [show lazyMass D.S.Q F D.S.L2 = lazyMass2 D.S.Q F D.S.L2 by unfold lazyMass; rw [k2]; rfl]
    exact lazy_eq D _ _ _ _ _ _ _ D.E2 D.E2 (fun j hj => (h.weights hJ hj).2.2.1)
      (fun j hj u i => Or.inr ((lazy_values hb hj).2.2.1 i)) (fun j hj u i => Or.inr ((lazy_values hb hj).2.2.1 i))
  · rw [show lazyMass D.S.Q F D.S.L3 = lazyMass3 D.S.Q F D.S.L3 by unfold lazyMass; rw [k3]; rfl]
    exact lazy_eq_one D _ _ _ _ _ _ D.E3 D.E3 (fun j hj => (h.weights hJ hj).2.2.2.1)
      (fun j hj u i => Or.inr ((lazy_values hb hj).2.2.2 i)) (fun j hj u i => Or.inr ((lazy_values hb hj).2.2.2 i))

/-- Case: the standard case (no point is between the two cutoffs). -/
example (polar dirichlet : Bool) := C37_lazy_mass
  ⟨(Case.adm polar dirichlet).built, (Case.adm polar dirichlet).q10, (Case.adm polar dirichlet).r, (Case.adm polar dirichlet).t,
    (Case.adm polar dirichlet).z, (Case.adm polar dirichlet).polar⟩ fun x _ => by rw [Case.map_det]; norm_num

/-- **C37** on the resolutions of C76, for every map with positive Jacobian: the lazy curl and divergence matrices, and the lazy double curl and double divergence matrices, are those
assembled by the sequence; the lazy gradient and stiffness matrices exactly if every gradient vanishes at the quadrature points whose Jacobian is between the cut-offs. -/
theorem C37_lazy_derivative (h : Sized ns ps q types F polar dirichlet D) (hc : Compatible ns types dirichlet)
    (hJ : ∀ x ∈ D.S.Q.x, 0 < jacobianDeterminant F (toV3 x)) :
    (lazyMatrix (lazyGradient D.S.Q F D.S.L0 D.S.L1) D.E0 D.E1 = D.D0 ↔
      ∀ j < D.nq, BetweenCutoffs F (D.S.point j) → ∀ u : Fin D.m0 → ℝ, ∀ k < 3, evaluateAtXq D.S.getDLambda0 (D.E0ᵀ *ᵥ u) j k = 0) ∧
    lazyMatrix (lazyCurl D.S.Q F D.S.L1 D.S.L2) D.E1 D.E2 = D.D1 ∧
    lazyMatrix (lazyDiv D.S.Q F D.S.L2 D.S.L3) D.E2 D.E3 = D.D2 ∧
    (lazyMatrix (lazyStiffness D.S.Q F D.S.L0) D.E0 D.E0 = D.E0 * assemble D.S.getDLambda0 D.S.getDLambda0 D.nq 3 D.W1 D.S.L0.dims.n D.S.L0.dims.n * D.E0ᵀ ↔
      ∀ j < D.nq, BetweenCutoffs F (D.S.point j) → ∀ u : Fin D.m0 → ℝ, ∀ k < 3, evaluateAtXq D.S.getDLambda0 (D.E0ᵀ *ᵥ u) j k = 0) ∧
    lazyMatrix (lazyDoubleCurl D.S.Q F D.S.L1) D.E1 D.E1 = D.E1 * assemble D.S.getDLambda1 D.S.getDLambda1 D.nq 3 D.W2 D.S.L1.dims.n D.S.L1.dims.n * D.E1ᵀ ∧
    lazyMatrix (lazyDoubleDiv D.S.Q F D.S.L2) D.E2 D.E2 = D.E2 * assemble D.S.getDLambda2 D.S.getDLambda2 D.nq 1 D.W3 D.S.L2.dims.n D.S.L2.dims.n * D.E2ᵀ := by
  classical
  have hb := h.base
  refine ⟨?_, ?_, ?_, ?_, ?_, ?_⟩
  · have e : lazyMatrix (lazyGradient D.S.Q F D.S.L0 D.S.L1) D.E0 D.E1 = D.E1 * assemble D.S.getLambda1 D.S.getDLambda0 D.nq 3
        (fun j => (lazyJ F (D.S.point j) * D.w j) • (((inv33 (lazyDF F (D.S.point j)))ᵀ)ᵀ * (inv33 (lazyDF F (D.S.point j)))ᵀ)) D.S.L1.dims.n D.S.L0.dims.n * D.E0ᵀ :=
      lazy_eq D _ _ _ _ _ _ _ D.E0 D.E1 (fun j hj => rfl)
        (fun j hj => grad_values hb hc hj) (fun j hj u i => Or.inr ((lazy_values hb hj).2.1 i))
    rw [e]
    exact weights_gap D.S.getLambda1 D.S.getDLambda0 D.W1 _ _ (fun j => BetweenCutoffs F (D.S.point j)) (fun j hj => (h.weights hJ hj).2.1)
      (fun j hj _ => (h.weights hJ hj).2.2.2.2) D.E0 D.E1 (fun v => ⟨(withMap D fun y => y).strongGrad *ᵥ v, fun j _ k hk =>
        ((DeRham.grad_spec (hb.exact hc) v).1 j k hk).symm⟩)
  · exact lazy_eq D _ _ _ _ _ _ _ D.E1 D.E2 (fun j hj => (h.weights hJ hj).2.2.1)
      (fun j hj => curl_values hb hc hj) (fun j hj u i => Or.inr ((lazy_values hb hj).2.2.1 i))
  · exact lazy_eq_one D _ _ _ _ _ _ D.E2 D.E3 (fun j hj => (h.weights hJ hj).2.2.2.1)
      (fun j hj => div_values hb hc hj) (fun j hj u i => Or.inr ((lazy_values hb hj).2.2.2 i))
  · have e : lazyMatrix (lazyStiffness D.S.Q F D.S.L0) D.E0 D.E0 = D.E0 * assemble D.S.getDLambda0 D.S.getDLambda0 D.nq 3
        (fun j => (lazyJ F (D.S.point j) * D.w j) • (((inv33 (lazyDF F (D.S.point j)))ᵀ)ᵀ * (inv33 (lazyDF F (D.S.point j)))ᵀ)) D.S.L0.dims.n D.S.L0.dims.n * D.E0ᵀ :=
      lazy_eq D _ _ _ _ _ _ _ D.E0 D.E0 (fun j hj => rfl)
        (fun j hj => grad_values hb hc hj) (fun j hj => grad_values hb hc hj)
    rw [e]
    exact weights_gap D.S.getDLambda0 D.S.getDLambda0 D.W1 _ _ (fun j => BetweenCutoffs F (D.S.point j)) (fun j hj => (h.weights hJ hj).2.1)
      (fun j hj _ => (h.weights hJ hj).2.2.2.2) D.E0 D.E0 (fun v => ⟨v, fun _ _ _ _ => rfl⟩)
  · exact lazy_eq D _ _ _ _ _ _ _ D.E1 D.E1 (fun j hj => (h.weights hJ hj).2.2.1) (fun j hj => curl_values hb hc hj) (fun j hj => curl_values hb hc hj)
  · exact lazy_eq_one D _ _ _ _ _ _ D.E2 D.E2 (fun j hj => (h.weights hJ hj).2.2.2.1) (fun j hj => div_values hb hc hj) (fun j hj => div_values hb hc hj)

end

/-- The hypotheses are met by a standard sequence, and a domain scaled by `1/100` has all its quadrature points between the cut-offs. -/
example : ∃ D, Sized (5, 6, 4) (3, 2, 1) 4 ("clamped", "periodic", "periodic") shrink true true D ∧ Compatible (5, 6, 4) ("clamped", "periodic", "periodic") true ∧
    (∀ x ∈ D.S.Q.x, 0 < jacobianDeterminant shrink (toV3 x)) ∧ ∀ x ∈ D.S.Q.x, BetweenCutoffs shrink x := by
  obtain ⟨D, h⟩ := Admissible.example true true
  refine ⟨withMap D shrink, ⟨(C90_same_as_sequence h.built shrink).1, h.q10, h.r, h.t, h.z, h.polar⟩, ⟨rfl, by simp, by simp, by simp, by simp⟩, fun x _ => ?_, fun x _ => ?_⟩
  · exact lt_of_lt_of_eq (by norm_num) (shrink_det (toV3 x)).symm
  · have e : jacobianDeterminant shrink (toV3 x) = 1/1000000 := shrink_det (toV3 x)
    unfold BetweenCutoffs
    rw [e]; norm_num

end Mrx.Props
