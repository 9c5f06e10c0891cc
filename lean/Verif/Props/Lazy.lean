import Verif.Proofs.Case
import Verif.Props.Pointwise
import Verif.Model.LazyMatrices
import Verif.Proofs.Exists

/-!
# C37: the lazily assembled matrices equal the assembled ones

Proved for maps with Jacobian determinant at least `1e-5` at the quadrature points (the derivative matrices also need `Compatible`,
since the tables are wrong otherwise). Below that threshold the two implementations disagree (`C37_lazy_mass_differs`).
-/

set_option linter.unusedSectionVars false
set_option linter.unusedVariables false

namespace Mrx.Props
open Finset Spec Matrix DeRham

section
variable {ns ps : Nat × Nat × Nat} {q : Nat} {types : String × String × String} {F : V3 → V3} {polar dirichlet : Bool} {D : DeRham}

/-- The general comparison: only basis functions that occur in the extracted spaces have to agree. -/
theorem lazy_eq (D : DeRham) {d e n0 n1 m0 m1 : Nat} (A : ℝ × ℝ × ℝ → Matrix (Fin e) (Fin d) ℝ) (c : ℝ × ℝ × ℝ → ℝ)
    (a b : Nat → ℝ × ℝ × ℝ → Fin d → ℝ) (ga gb : Getter) (W : Nat → Matrix (Fin d) (Fin d) ℝ)
    (E0 : Matrix (Fin m0) (Fin n0) ℝ) (E1 : Matrix (Fin m1) (Fin n1) ℝ)
    (hW : ∀ j < D.nq, W j = (c (D.S.point j) * D.w j) • ((A (D.S.point j))ᵀ * A (D.S.point j)))
    (ha : ∀ j < D.nq, ∀ u, ∀ i : Fin n0, (E0ᵀ *ᵥ u) i = 0 ∨ ∀ k : Fin d, ga i j k = a i (D.S.point j) k)
    (hb : ∀ j < D.nq, ∀ u, ∀ i : Fin n1, (E1ᵀ *ᵥ u) i = 0 ∨ ∀ k : Fin d, gb i j k = b i (D.S.point j) k) :
    lazyMatrix (lazyEinsum D.S.Q n0 n1 (fun i x => A x *ᵥ a i x) (fun i x => A x *ᵥ b i x) c) E0 E1
      = E1 * assemble gb ga D.nq d W n1 n0 * E0ᵀ := by
  ext r s
  unfold lazyMatrix
  simp only [mul_apply, transpose_apply, Finset.sum_mul]
  refine Finset.sum_congr rfl fun i _ => Finset.sum_congr rfl fun l _ => ?_
  by_cases e0 : E0 s i = 0
  · rw [e0]; ring
  by_cases e1 : E1 r l = 0
  · rw [e1]; ring
  have c0 : ∀ j < D.nq, ∀ k : Fin d, ga i j k = a i (D.S.point j) k := fun j hj => by
    refine (ha j hj (Pi.single s 1) i).resolve_left ?_
    simpa using e0
  have c1 : ∀ j < D.nq, ∀ k : Fin d, gb l j k = b l (D.S.point j) k := fun j hj => by
    refine (hb j hj (Pi.single r 1) l).resolve_left ?_
    simpa using e1
  congr 2
  unfold lazyEinsum assemble
  refine Finset.sum_congr rfl fun j hj => ?_
  have hj' : j < D.nq := Finset.mem_range.mp hj
  have l1 : ∑ k : Fin d, ∑ m : Fin d, gb l j k * W j k m * ga i j m = b l (D.S.point j) ⬝ᵥ W j *ᵥ a i (D.S.point j) := by
    unfold dotProduct mulVec dotProduct
    refine Finset.sum_congr rfl fun k _ => ?_
    rw [Finset.mul_sum]
    refine Finset.sum_congr rfl fun m _ => ?_
    rw [c0 j hj', c1 j hj']; ring
  rw [l1, hW j hj', smul_mulVec, dotProduct_smul, ← mulVec_mulVec, dotProduct_mulVec, vecMul_transpose, smul_eq_mul]
  unfold dotProduct
  rw [Finset.mul_sum]
  refine Finset.sum_congr rfl fun k _ => ?_
  change (A (D.S.point j) *ᵥ a i (D.S.point j)) k * (A (D.S.point j) *ᵥ b l (D.S.point j)) k * c (D.S.point j) * D.w j = _
  ring

/-- The same without a metric factor. -/
theorem lazy_eq_one (D : DeRham) {d n0 n1 m0 m1 : Nat} (c : ℝ × ℝ × ℝ → ℝ)
    (a b : Nat → ℝ × ℝ × ℝ → Fin d → ℝ) (ga gb : Getter) (W : Nat → Matrix (Fin d) (Fin d) ℝ)
    (E0 : Matrix (Fin m0) (Fin n0) ℝ) (E1 : Matrix (Fin m1) (Fin n1) ℝ)
    (hW : ∀ j < D.nq, W j = (c (D.S.point j) * D.w j) • 1)
    (ha : ∀ j < D.nq, ∀ u, ∀ i : Fin n0, (E0ᵀ *ᵥ u) i = 0 ∨ ∀ k : Fin d, ga i j k = a i (D.S.point j) k)
    (hb : ∀ j < D.nq, ∀ u, ∀ i : Fin n1, (E1ᵀ *ᵥ u) i = 0 ∨ ∀ k : Fin d, gb i j k = b i (D.S.point j) k) :
    lazyMatrix (lazyEinsum D.S.Q n0 n1 a b c) E0 E1 = E1 * assemble gb ga D.nq d W n1 n0 * E0ᵀ := by
  have := lazy_eq D (fun _ => (1 : Matrix (Fin d) (Fin d) ℝ)) c a b ga gb W E0 E1 (fun j hj => by
    rw [hW j hj]; simp) ha hb
  simpa only [one_mulVec] using this

/-- The four weights. -/
theorem lazy_weights (h : Admissible ns ps q types F polar dirichlet D) {j : Nat} (hj : j < D.nq) :
    D.W0 j = (lazyJ F (D.S.point j) * D.w j) • 1 ∧
    D.W1 j = (lazyJ F (D.S.point j) * D.w j) • (((inv33 (lazyDF F (D.S.point j)))ᵀ)ᵀ * (inv33 (lazyDF F (D.S.point j)))ᵀ) ∧
    D.W2 j = (1 / lazyJ F (D.S.point j) * D.w j) • ((lazyDF F (D.S.point j))ᵀ * lazyDF F (D.S.point j)) ∧
    D.W3 j = (1 / lazyJ F (D.S.point j) * D.w j) • 1 := by
  obtain ⟨eJ, eG, eI, _, _, eGi, _⟩ := h.metricAt hj
  have jj : lazyJ F (D.S.point j) = D.g.J j := eJ.symm
  have dd : lazyDF F (D.S.point j) = jacfwd F (D.x j) := rfl
  rw [jj, dd]
  refine ⟨?_, ?_, ?_, ?_⟩
  · ext a b; rw [Subsingleton.elim a b]; simp [W0]
  · rw [eI, transpose_transpose, ← eGi]; ext a b; simp [W1]; ring
  · rw [← eG]; ext a b; simp [W2]; ring
  · ext a b; rw [Subsingleton.elim a b]; simp [W3]

theorem lazy_values (h : Admissible ns ps q types F polar dirichlet D) {j : Nat} (hj : j < D.nq) :
    (∀ i : Fin D.S.L0.dims.n, ∀ k : Fin 1, D.S.getLambda0 i j k = D.S.L0.evaluate (D.S.point j) i k) ∧
    (∀ i : Fin D.S.L1.dims.n, ∀ k : Fin 3, D.S.getLambda1 i j k = D.S.L1.evaluate (D.S.point j) i k) ∧
    (∀ i : Fin D.S.L2.dims.n, ∀ k : Fin 3, D.S.getLambda2 i j k = D.S.L2.evaluate (D.S.point j) i k) ∧
    (∀ i : Fin D.S.L3.dims.n, ∀ k : Fin 1, D.S.getLambda3 i j k = D.S.L3.evaluate (D.S.point j) i k) := by
  obtain ⟨a, b, c, d⟩ := C19_getters_agree ns ps q types D.S (Admissible.seq h.built) j _ (h.getElem hj)
  refine ⟨fun i k => ?_, fun i k => b i i.2 k k.2, fun i k => c i i.2 k k.2, fun i k => ?_⟩
  · rw [show (k : Nat) = 0 by omega]; exact a i i.2
  · rw [show (k : Nat) = 0 by omega]; exact d i i.2

/-- **C37** (Jacobian at least `1e-5`) `LazyMassMatrix(Λk, Q, F, Ek).matrix()` is the mass matrix `Mk`, for all four degrees. -/
theorem C37_lazy_mass_regular (h : Admissible ns ps q types F polar dirichlet D) :
    lazyMatrix (lazyMass D.S.Q F D.S.L0) D.E0 D.E0 = D.M0 ∧ lazyMatrix (lazyMass D.S.Q F D.S.L1) D.E1 D.E1 = D.M1 ∧
    lazyMatrix (lazyMass D.S.Q F D.S.L2) D.E2 D.E2 = D.M2 ∧ lazyMatrix (lazyMass D.S.Q F D.S.L3) D.E3 D.E3 = D.M3 := by
  obtain ⟨k0, k1, k2, k3⟩ := h.degrees
  refine ⟨?_, ?_, ?_, ?_⟩
  · rw [show lazyMass D.S.Q F D.S.L0 = lazyMass0 D.S.Q F D.S.L0 by unfold lazyMass; rw [k0]; rfl]
    exact lazy_eq_one D _ _ _ _ _ _ D.E0 D.E0 (fun j hj => (lazy_weights h hj).1)
      (fun j hj u i => Or.inr ((lazy_values h hj).1 i)) (fun j hj u i => Or.inr ((lazy_values h hj).1 i))
  · rw [show lazyMass D.S.Q F D.S.L1 = lazyMass1 D.S.Q F D.S.L1 by unfold lazyMass; rw [k1]; rfl]
    exact lazy_eq D _ _ _ _ _ _ _ D.E1 D.E1 (fun j hj => (lazy_weights h hj).2.1)
      (fun j hj u i => Or.inr ((lazy_values h hj).2.1 i)) (fun j hj u i => Or.inr ((lazy_values h hj).2.1 i))
  · rw [show lazyMass D.S.Q F D.S.L2 = lazyMass2 D.S.Q F D.S.L2 by unfold lazyMass; rw [k2]; rfl]
    exact lazy_eq D _ _ _ _ _ _ _ D.E2 D.E2 (fun j hj => (lazy_weights h hj).2.2.1)
      (fun j hj u i => Or.inr ((lazy_values h hj).2.2.1 i)) (fun j hj u i => Or.inr ((lazy_values h hj).2.2.1 i))
  · rw [show lazyMass D.S.Q F D.S.L3 = lazyMass3 D.S.Q F D.S.L3 by unfold lazyMass; rw [k3]; rfl]
    exact lazy_eq_one D _ _ _ _ _ _ D.E3 D.E3 (fun j hj => (lazy_weights h hj).2.2.2)
      (fun j hj u i => Or.inr ((lazy_values h hj).2.2.2 i)) (fun j hj u i => Or.inr ((lazy_values h hj).2.2.2 i))

/-- Case: the standard case. -/
example (polar dirichlet : Bool) := C37_lazy_mass_regular (Case.adm polar dirichlet)

/-- **C37** `LazyProjectionMatrix` between 2- and 1-forms, and between 3- and 0-forms, is the matrix assembled in `assemble_P12` and
`assemble_P03`. -/
theorem C37_lazy_projection (h : Admissible ns ps q types F polar dirichlet D) :
    lazyMatrix (lazyProjection D.S.Q 3 D.S.L2 D.S.L1) D.E2 D.E1 = D.M12 ∧
    solve D.M0 (lazyMatrix (lazyProjection D.S.Q 1 D.S.L3 D.S.L0) D.E3 D.E0) = D.P03 := by
  constructor
  · exact lazy_eq_one D _ _ _ _ _ _ D.E2 D.E1 (fun j hj => by simp)
      (fun j hj u i => Or.inr ((lazy_values h hj).2.2.1 i)) (fun j hj u i => Or.inr ((lazy_values h hj).2.1 i))
  · unfold P03
    congr 1
    exact lazy_eq_one D _ _ _ _ _ _ D.E3 D.E0 (fun j hj => by
        ext a b; rw [Subsingleton.elim a b]; simp)
      (fun j hj u i => Or.inr ((lazy_values h hj).2.2.2 i)) (fun j hj u i => Or.inr ((lazy_values h hj).1 i))

/-- Case: the standard case. -/
example (polar dirichlet : Bool) := C37_lazy_projection (Case.adm polar dirichlet)

theorem lazyEinsum_form {d : Nat} (Q : Quad.Rule ℝ) (n0 n1 : Nat) (a b : Nat → ℝ × ℝ × ℝ → Fin d → ℝ) (c : ℝ × ℝ × ℝ → ℝ) (u : Fin n0 → ℝ) (v : Fin n1 → ℝ) :
    v ⬝ᵥ lazyEinsum Q n0 n1 a b c *ᵥ u = ∑ j ∈ Finset.range Q.w.length, Q.w.getD j 0 * c (Q.x.getD j 0) *
      ((fun k => ∑ l : Fin n1, v l * b l (Q.x.getD j 0) k) ⬝ᵥ fun k => ∑ i : Fin n0, u i * a i (Q.x.getD j 0) k) := by
  simp only [dotProduct, mulVec, lazyEinsum, Finset.mul_sum, Finset.sum_mul]
  calc _ = ∑ l : Fin n1, ∑ j ∈ Finset.range Q.w.length, ∑ i : Fin n0, ∑ k : Fin d,
        v l * (a i (Q.x.getD j 0) k * b l (Q.x.getD j 0) k * c (Q.x.getD j 0) * Q.w.getD j 0 * u i) :=
        Finset.sum_congr rfl fun l _ => Finset.sum_comm
    _ = ∑ j ∈ Finset.range Q.w.length, ∑ l : Fin n1, ∑ i : Fin n0, ∑ k : Fin d,
        v l * (a i (Q.x.getD j 0) k * b l (Q.x.getD j 0) k * c (Q.x.getD j 0) * Q.w.getD j 0 * u i) := Finset.sum_comm
    _ = _ := Finset.sum_congr rfl fun j _ => by
      rw [show (∑ l : Fin n1, ∑ i : Fin n0, ∑ k : Fin d,
          v l * (a i (Q.x.getD j 0) k * b l (Q.x.getD j 0) k * c (Q.x.getD j 0) * Q.w.getD j 0 * u i)) = ∑ k : Fin d, ∑ i : Fin n0, ∑ l : Fin n1,
          v l * (a i (Q.x.getD j 0) k * b l (Q.x.getD j 0) k * c (Q.x.getD j 0) * Q.w.getD j 0 * u i) by
        rw [Finset.sum_comm]
        rw [Finset.sum_congr rfl fun i _ => Finset.sum_comm]
        rw [Finset.sum_comm]]
      exact Finset.sum_congr rfl fun k _ => Finset.sum_congr rfl fun i _ => Finset.sum_congr rfl fun l _ => by ring

/-- **C37** the lazy mass matrix of a vector form (degree `-1`) is the `L2` product of the pushed-forward fields `DF U`, `DF V` over the physical domain
by the quadrature rule, for every rule and map; it is symmetric, and semidefinite where the Jacobian and the weights are non-negative. -/
theorem C37_lazy_vector (Q : Quad.Rule ℝ) (F : V3 → V3) (Λ : Form ℝ) (hk : Λ.dims.k = -1) (u v : Fin Λ.dims.n → ℝ) :
    (v ⬝ᵥ lazyMass Q F Λ *ᵥ u = ∑ j ∈ Finset.range Q.w.length, Q.w.getD j 0 * (jacfwd F (toV3 (Q.x.getD j 0))).det *
      ((jacfwd F (toV3 (Q.x.getD j 0)) *ᵥ fun c => ∑ i, v i * Λ.evaluate (Q.x.getD j 0) i c) ⬝ᵥ
        (jacfwd F (toV3 (Q.x.getD j 0)) *ᵥ fun c => ∑ i, u i * Λ.evaluate (Q.x.getD j 0) i c))) ∧
    ((lazyMass Q F Λ)ᵀ = lazyMass Q F Λ) ∧
    ((∀ j < Q.w.length, 0 ≤ Q.w.getD j 0 * (jacfwd F (toV3 (Q.x.getD j 0))).det) → 0 ≤ u ⬝ᵥ lazyMass Q F Λ *ᵥ u) := by
  have key : ∀ u v : Fin Λ.dims.n → ℝ, v ⬝ᵥ lazyMass Q F Λ *ᵥ u = ∑ j ∈ Finset.range Q.w.length, Q.w.getD j 0 *
      (jacfwd F (toV3 (Q.x.getD j 0))).det * ((jacfwd F (toV3 (Q.x.getD j 0)) *ᵥ fun c => ∑ i, v i * Λ.evaluate (Q.x.getD j 0) i c) ⬝ᵥ
        (jacfwd F (toV3 (Q.x.getD j 0)) *ᵥ fun c => ∑ i, u i * Λ.evaluate (Q.x.getD j 0) i c)) := by
    intro u v
    have e : lazyMass Q F Λ = lazyMassV Q F Λ := by
      unfold lazyMass
      rw [hk]
      rfl
    rw [e]
    have hp : ∀ (w : Fin Λ.dims.n → ℝ) (x : ℝ × ℝ × ℝ), (jacfwd F (toV3 x) *ᵥ fun c => ∑ i, w i * Λ.evaluate x i c) =
        fun c => ∑ i, w i * (lazyDF F x *ᵥ evalV Λ i x) c := by
      intro w x
      funext c
      simp only [mulVec, dotProduct, lazyDF, evalV, Finset.mul_sum]
      rw [Finset.sum_comm]
      exact Finset.sum_congr rfl fun i _ => Finset.sum_congr rfl fun b _ => by ring
    simp only [hp]
    exact lazyEinsum_form Q _ _ _ _ _ u v
  refine ⟨key u v, ?_, fun h => ?_⟩
  · ext a b
    have h1 := key (Pi.single a 1) (Pi.single b 1)
    have h2 := key (Pi.single b 1) (Pi.single a 1)
    rw [single_one_dotProduct, mulVec_single_one] at h1 h2
    show (lazyMass Q F Λ) b a = (lazyMass Q F Λ) a b
    refine h1.trans (Eq.trans ?_ h2.symm)
    exact Finset.sum_congr rfl fun j _ => by rw [dotProduct_comm]
  · rw [key]
    exact Finset.sum_nonneg fun j hj => mul_nonneg (h j (Finset.mem_range.1 hj)) (Finset.sum_nonneg fun c _ => mul_self_nonneg _)

/-- Case: vector fields on 4 × 3 × 1 splines, any rule and map. -/
example (Q : Quad.Rule ℝ) (F : V3 → V3) : ∃ Λ : Form ℝ, Form.mk? (-1) (4, 3, 1) (2, 1, 0) ("clamped", "periodic", "constant") = .ok Λ ∧
    (lazyMass Q F Λ)ᵀ = lazyMass Q F Λ :=
  ⟨_, rfl, (C37_lazy_vector Q F _ rfl 0 0).2.1⟩

theorem jac_of {g : Form ℝ} {i comp dir : Nat} {v : ℝ} {x : ℝ × ℝ × ℝ} (h : HasPartial (fun y => g.evaluate y i comp) dir v x) :
    jacfwdForm g i x comp dir = v := by
  have := HasDerivAt.deriv h
  unfold jacfwdForm
  rw [← this]
  rcases dir with _ | _ | _ <;> rfl

theorem grad_values (h : Admissible ns ps q types F polar dirichlet D) (hc : Compatible ns types dirichlet) {j : Nat} (hj : j < D.nq)
    (u : Fin D.m0 → ℝ) (i : Fin D.S.L0.dims.n) :
    (D.E0ᵀ *ᵥ u) i = 0 ∨ ∀ k : Fin 3, D.S.getDLambda0 i j k = gradForm D.S.L0 i (D.S.point j) k :=
  (grad_table h hc u j _ (h.getElem hj) i).imp id fun a k => (jac_of (a k k.2)).symm

theorem curl_values (h : Admissible ns ps q types F polar dirichlet D) (hc : Compatible ns types dirichlet) {j : Nat} (hj : j < D.nq)
    (u : Fin D.m1 → ℝ) (i : Fin D.S.L1.dims.n) :
    (D.E1ᵀ *ᵥ u) i = 0 ∨ ∀ k : Fin 3, D.S.getDLambda1 i j k = curlForm D.S.L1 i (D.S.point j) k := by
  obtain ⟨P, hP⟩ := curl_table h hc u j _ (h.getElem hj) i
  refine hP.imp id fun ⟨a, c0, c1, c2⟩ k => ?_
  have e : ∀ comp < 3, ∀ dir < 3, comp ≠ dir → jacfwdForm D.S.L1 i (D.S.point j) comp dir = P comp dir :=
    fun comp h1 dir h2 h3 => jac_of (a comp h1 dir h2 h3)
  have v0 : (curlForm D.S.L1 i (D.S.point j)) 0 = P 2 1 - P 1 2 := by
    rw [← e 2 (by omega) 1 (by omega) (by omega), ← e 1 (by omega) 2 (by omega) (by omega)]; rfl
  have v1 : (curlForm D.S.L1 i (D.S.point j)) 1 = P 0 2 - P 2 0 := by
    rw [← e 2 (by omega) 0 (by omega) (by omega), ← e 0 (by omega) 2 (by omega) (by omega)]; rfl
  have v2 : (curlForm D.S.L1 i (D.S.point j)) 2 = P 1 0 - P 0 1 := by
    rw [← e 1 (by omega) 0 (by omega) (by omega), ← e 0 (by omega) 1 (by omega) (by omega)]; rfl
  match k with
  | 0 => rw [v0]; exact c0
  | 1 => rw [v1]; exact c1
  | 2 => rw [v2]; exact c2

theorem div_values (h : Admissible ns ps q types F polar dirichlet D) (hc : Compatible ns types dirichlet) {j : Nat} (hj : j < D.nq)
    (u : Fin D.m2 → ℝ) (i : Fin D.S.L2.dims.n) :
    (D.E2ᵀ *ᵥ u) i = 0 ∨ ∀ k : Fin 1, D.S.getDLambda2 i j k = divForm D.S.L2 i (D.S.point j) k := by
  obtain ⟨P, hP⟩ := div_table h hc u j _ (h.getElem hj) i
  refine hP.imp id fun ⟨a, c0⟩ k => ?_
  rw [show (k : Nat) = 0 by omega, c0]
  unfold divForm
  rw [jac_of (a 0 (by omega)), jac_of (a 1 (by omega)), jac_of (a 2 (by omega))]; ring

/-- **C37** (Jacobian at least `1e-5`, `Compatible`) `LazyDerivativeMatrix(Λk, Λ(k+1), Q, F, Ek, E(k+1)).matrix()` is the
matrix `Dk` assembled by the sequence. -/
theorem C37_lazy_derivative_regular (h : Admissible ns ps q types F polar dirichlet D) (hc : Compatible ns types dirichlet) :
    lazyMatrix (lazyGradient D.S.Q F D.S.L0 D.S.L1) D.E0 D.E1 = D.D0 ∧
    lazyMatrix (lazyCurl D.S.Q F D.S.L1 D.S.L2) D.E1 D.E2 = D.D1 ∧
    lazyMatrix (lazyDiv D.S.Q F D.S.L2 D.S.L3) D.E2 D.E3 = D.D2 := by
  refine ⟨?_, ?_, ?_⟩
  · exact lazy_eq D _ _ _ _ _ _ _ D.E0 D.E1 (fun j hj => (lazy_weights h hj).2.1)
      (fun j hj => grad_values h hc hj) (fun j hj u i => Or.inr ((lazy_values h hj).2.1 i))
  · exact lazy_eq D _ _ _ _ _ _ _ D.E1 D.E2 (fun j hj => (lazy_weights h hj).2.2.1)
      (fun j hj => curl_values h hc hj) (fun j hj u i => Or.inr ((lazy_values h hj).2.2.1 i))
  · exact lazy_eq_one D _ _ _ _ _ _ D.E2 D.E3 (fun j hj => (lazy_weights h hj).2.2.2)
      (fun j hj => div_values h hc hj) (fun j hj u i => Or.inr ((lazy_values h hj).2.2.2 i))

/-- Case: the standard case. -/
example (polar dirichlet : Bool) := C37_lazy_derivative_regular (Case.adm polar dirichlet) (Case.compat dirichlet)

/-- **C37** (Jacobian at least `1e-5`, `Compatible`) the operators of the sequence can be computed from the lazy matrices:
`dd0`, `dd1`, `dd2` from `LazyStiffnessMatrix`, `LazyDoubleCurlMatrix`, `LazyDoubleDivergenceMatrix`. -/
theorem C37_lazy_laplacians (h : Admissible ns ps q types F polar dirichlet D) (hc : Compatible ns types dirichlet) :
    D.dd0 = solve D.M0 (lazyMatrix (lazyStiffness D.S.Q F D.S.L0) D.E0 D.E0) ∧
    D.dd1 = solve D.M1 (lazyMatrix (lazyDoubleCurl D.S.Q F D.S.L1) D.E1 D.E1) - D.strongGrad * D.weakDiv ∧
    D.dd2 = solve D.M2 (lazyMatrix (lazyDoubleDiv D.S.Q F D.S.L2) D.E2 D.E2) + D.strongCurl * D.weakCurl := by
  have a : lazyMatrix (lazyStiffness D.S.Q F D.S.L0) D.E0 D.E0 = _ := lazy_eq D _ _ _ _ _ _ _ D.E0 D.E0
    (fun j hj => (lazy_weights h hj).2.1) (fun j hj => grad_values h hc hj) (fun j hj => grad_values h hc hj)
  have b : lazyMatrix (lazyDoubleCurl D.S.Q F D.S.L1) D.E1 D.E1 = _ := lazy_eq D _ _ _ _ _ _ _ D.E1 D.E1
    (fun j hj => (lazy_weights h hj).2.2.1) (fun j hj => curl_values h hc hj) (fun j hj => curl_values h hc hj)
  have c : lazyMatrix (lazyDoubleDiv D.S.Q F D.S.L2) D.E2 D.E2 = _ := lazy_eq_one D _ _ _ _ _ _ D.E2 D.E2
    (fun j hj => (lazy_weights h hj).2.2.2) (fun j hj => div_values h hc hj) (fun j hj => div_values h hc hj)
  rw [a, b, c]
  exact ⟨rfl, rfl, rfl⟩

end

/-- The hypotheses of the theorems above are met by a standard sequence. -/
example : ∃ D, Admissible (5, 6, 4) (3, 2, 1) 4 ("clamped", "periodic", "periodic") (fun y => y) true true D ∧
    Compatible (5, 6, 4) ("clamped", "periodic", "periodic") true := by
  obtain ⟨D, h⟩ := Admissible.example true true
  exact ⟨D, h, ⟨rfl, by simp, by simp, by simp, by simp⟩⟩

/-- The uniform scaling by `1/100`. -/
noncomputable def shrink : V3 → V3 := fun y => ((1/100 : ℝ) • (1 : M33)) *ᵥ y

theorem shrink_jac (x : V3) : jacfwd shrink x = (1/100 : ℝ) • (1 : M33) := jacfwd_mulVec _ x
theorem shrink_det (x : V3) : (jacfwd shrink x).det = 1/1000000 := by
  rw [shrink_jac, Matrix.det_smul]; norm_num

theorem shrink_inv (x : V3) : inv33 (jacfwd shrink x) = (100 : ℝ) • (1 : M33) := by
  rw [(inv33_regular (by rw [shrink_det]; rw [abs_of_pos (by norm_num)]; norm_num)).1, shrink_jac]
  apply Matrix.inv_eq_left_inv
  rw [Matrix.smul_mul, Matrix.mul_smul, Matrix.one_mul, smul_smul]; norm_num

/-- On a domain scaled by `1/100`, the lazy 1-form mass matrix is that of the unscaled domain divided by 100. -/
theorem shrink_lazy (Q : Quad.Rule ℝ) (Λ : Form ℝ) : lazyMass1 Q shrink Λ = (1/100 : ℝ) • lazyMass1 Q (fun y => y) Λ := by
  have e1 : ∀ x, inv33 (lazyDF shrink x) = (100 : ℝ) • (1 : M33) := fun x => shrink_inv _
  have e2 : ∀ x, lazyJ shrink x = 1/1000000 := fun x => shrink_det _
  have e3 : ∀ x, lazyDF (fun y => y) x = 1 := fun x => by
    have := jacfwd_mulVec (1 : M33) (toV3 x)
    simp only [one_mulVec] at this
    exact this
  have e4 : ∀ x, lazyJ (fun y => y) x = 1 := fun x => jacobianDeterminant_id _
  have e5 : inv33 (1 : M33) = 1 := by
    have := (C21_inv33_is_inverse 1 (by rw [Matrix.det_one]; norm_num)).1; simpa using this
  unfold lazyMass1 lazyEinsum
  ext l i
  simp only [e1, e2, e3, e4, e5, transpose_smul, transpose_one, smul_mulVec, one_mulVec, Pi.smul_apply, smul_eq_mul]
  change _ = (1/100 : ℝ) * _
  rw [Finset.mul_sum]
  simp only [Finset.mul_sum]
  refine Finset.sum_congr rfl fun j _ => Finset.sum_congr rfl fun k _ => ?_
  ring

theorem lazyMatrix_smul {n0 n1 r0 r1 : Nat} (c : ℝ) (A : Matrix (Fin n1) (Fin n0) ℝ) (E0 : Matrix (Fin r0) (Fin n0) ℝ)
    (E1 : Matrix (Fin r1) (Fin n1) ℝ) : lazyMatrix (c • A) E0 E1 = c • lazyMatrix A E0 E1 := by
  unfold lazyMatrix
  rw [Matrix.mul_smul, Matrix.smul_mul]

theorem mul_zero_mul {n m : Nat} {A : Matrix (Fin n) (Fin n) ℝ} (hA : A = 0) (E : Matrix (Fin m) (Fin n) ℝ) : E * A * Eᵀ = 0 := by
  rw [hA, Matrix.mul_zero, Matrix.zero_mul]

theorem spd_smul {n : Nat} {A : Matrix (Fin n) (Fin n) ℝ} {c : ℝ} (hc : 0 < c) (hA : SPD A) : SPD (c • A) := by
  refine ⟨by rw [transpose_smul, hA.1], fun x hx => ?_⟩
  rw [smul_mulVec, dotProduct_smul, smul_eq_mul]
  exact mul_pos hc (hA.2 x hx)

/-- **C37** negation: without the bound on the Jacobian the two implementations disagree. For the map `x ↦ x/100` the assembled 1-form
mass matrix is zero, while the lazy one is positive definite. -/
theorem C37_lazy_mass_differs : ∃ D : DeRham,
    DeRham.mk? (5, 6, 4) (3, 2, 1) 4 ("clamped", "periodic", "periodic") shrink false false = .ok D ∧ 0 < D.m1 ∧
    (∀ x, jacobianDeterminant shrink x ≠ 0) ∧ D.M1 = 0 ∧ SPD (lazyMatrix (lazyMass D.S.Q shrink D.S.L1) D.E1 D.E1) ∧
    lazyMatrix (lazyMass D.S.Q shrink D.S.L1) D.E1 D.E1 ≠ D.M1 := by
  obtain ⟨D', h⟩ := Admissible.example false false
  have hdeg := h.degrees
  have hdim := h.dims0
  have hdim1 := (Seq.nr_eq h.quad.wf).1
  have hl := (C37_lazy_mass_regular h).2.1
  have hs := (C31_mass_matrices_definite h).2.1
  have hp := h.points_len
  obtain ⟨S, hS, ⟨hp', _⟩ | ⟨_, rfl⟩⟩ := Admissible.cases' h.built
  · cases hp'
  have k1 : S.L1.dims.k = 1 := hdeg.2.1
  have hm : 0 < (BoundaryOp.mk S.L1.dims (DeRham.bcTypes false)).rowDims.n := by
    change S.L1.dims = _ at hdim1
    change S.L0.dims = _ at hdim
    unfold BoundaryOp.rowDims
    rw [hdim1]
    simp only [DeRham.bcTypes, Dims.n, getDim, Bool.false_eq_true, if_false]
    have a : (DeRham.ofBoundary S (fun y => y) false).S.L0.dims = S.L0.dims := rfl
    rw [a, hdim]
    simp [Form.dsize, Dims.n1, Dims.n2, Dims.n3]
  have hspd : SPD (lazyMatrix (lazyMass S.Q shrink S.L1) (DeRham.ofBoundary S shrink false).E1 (DeRham.ofBoundary S shrink false).E1) := by
    have e : lazyMass S.Q shrink S.L1 = (1/100 : ℝ) • lazyMass S.Q (fun y => y) S.L1 := by
      have a1 : ∀ G, lazyMass S.Q G S.L1 = lazyMass1 S.Q G S.L1 := fun G => by unfold lazyMass; rw [k1]; rfl
      rw [a1, a1]; exact shrink_lazy _ _
    have e2 : lazyMatrix (lazyMass S.Q shrink S.L1) (DeRham.ofBoundary S shrink false).E1 (DeRham.ofBoundary S shrink false).E1
        = (1/100 : ℝ) • (DeRham.ofBoundary S (fun y => y) false).M1 := by
      rw [← hl, e]
      exact lazyMatrix_smul _ _ _ _
    rw [e2]
    exact spd_smul (by norm_num) hs
  have hz : (DeRham.ofBoundary S shrink false).M1 = 0 := by
    unfold DeRham.M1
    have : assemble S.getLambda1 S.getLambda1 (DeRham.ofBoundary S shrink false).nq 3 (DeRham.ofBoundary S shrink false).W1
        S.L1.dims.n S.L1.dims.n = 0 := by
      ext a b
      unfold assemble
      refine Finset.sum_eq_zero fun j hj => ?_
      have hj' : j < (S.Q.x.map toV3).length := by
        rw [List.length_map]
        rw [show S.Q.x.length = _ from hp]
        exact Finset.mem_range.mp hj
      have : (DeRham.ofBoundary S shrink false).W1 j = 0 := by
        ext k l
        unfold W1
        rw [show (DeRham.ofBoundary S shrink false).g.Ginv j = 0 from
          C25_inverse_metric_zero_for_small_jacobian shrink (S.Q.x.map toV3) j _ (List.getElem?_eq_getElem hj') (by
            unfold jacobianDeterminant; rw [shrink_det, abs_of_pos (by norm_num)]; norm_num)]
        simp
      simp [this]
    exact mul_zero_mul this _
  refine ⟨DeRham.ofBoundary S shrink false, ?_, hm, fun x => ?_, hz, hspd, fun e => ?_⟩
  · unfold DeRham.mk?; rw [hS]; rfl
  · unfold jacobianDeterminant; rw [shrink_det]; norm_num
  · rw [hz] at e
    have h1 := hspd.2 (Pi.single ⟨0, hm⟩ 1) (by simp)
    rw [show lazyMatrix (lazyMass S.Q shrink S.L1) (DeRham.ofBoundary S shrink false).E1 (DeRham.ofBoundary S shrink false).E1 = 0 from e] at h1
    simp at h1

end Mrx.Props
