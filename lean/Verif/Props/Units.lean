import Verif.Proofs.Case
import Verif.Spec.Similarity
import Verif.Proofs.Exists
import Verif.Props.Mass
import Verif.Proofs.Pinv
import Mathlib.Topology.Algebra.Module.FiniteDimension

/-!
# C97: rigid motions and changes of units
-/

set_option linter.unusedSectionVars false
set_option linter.unusedVariables false

namespace Mrx.Props
open Matrix Mrx Spec

/-! ## The metric -/

theorem jacfwd_similarity {s : ℝ} (hs : s ≠ 0) {R : M33} (hR : IsRotation R) (b : V3) (F : V3 → V3) (x : V3) :
    jacfwd (similarity s R b F) x = s • (R * jacfwd F x) := by
  have hR' : R * Rᵀ = 1 := mul_eq_one_comm.1 hR.orth
  let e : V3 ≃ₗ[ℝ] V3 := LinearEquiv.ofLinear (Matrix.toLin' (s • R)) (Matrix.toLin' (s⁻¹ • Rᵀ))
    (by rw [← Matrix.toLin'_mul, smul_mul_smul_comm, hR', mul_inv_cancel₀ hs, one_smul, Matrix.toLin'_one])
    (by rw [← Matrix.toLin'_mul, smul_mul_smul_comm, hR.orth, inv_mul_cancel₀ hs, one_smul, Matrix.toLin'_one])
  have he : ∀ v, e v = s • (R *ᵥ v) := fun v => by
    change Matrix.toLin' (s • R) v = _
    rw [Matrix.toLin'_apply, smul_mulVec]
  have h1 : similarity s R b F = fun y => (e.toContinuousLinearEquiv ∘ F) y + b := by
    funext y
    change _ = e (F y) + b
    rw [he]; rfl
  ext i j
  unfold jacfwd
  rw [h1, fderiv_add_const, e.toContinuousLinearEquiv.comp_fderiv]
  change e (fderiv ℝ F x (Pi.single j 1)) i = _
  rw [he]
  rfl

/-- **C97** under a rotation, a change of units and a shift of the device, `J` is multiplied by `s³` and the metric by `s²`, at every point and for every map (differentiable or not). -/
theorem C97_metric {s : ℝ} (hs : s ≠ 0) {R : M33} (hR : IsRotation R) (b : V3) (F : V3 → V3) (xs : List V3) (j : Nat) :
    (Metric.ofMap (similarity s R b F) xs).J j = s ^ 3 * (Metric.ofMap F xs).J j ∧ (Metric.ofMap (similarity s R b F) xs).G j = s ^ 2 • (Metric.ofMap F xs).G j := by
  refine ⟨?_, ?_⟩
  · simp only [Metric.ofMap, jacobianDeterminant, jacfwd_similarity hs hR, det_smul, det_mul, hR.det, one_mul]
    simp
  · simp only [Metric.ofMap, jacfwd_similarity hs hR]
    rw [transpose_smul, smul_mul_smul_comm, transpose_mul, Matrix.mul_assoc, ← Matrix.mul_assoc Rᵀ, hR.orth, Matrix.one_mul, pow_two]

variable {ns ps : Nat × Nat × Nat} {q : Nat} {types : String × String × String} {F : V3 → V3} {polar dirichlet : Bool} {D : DeRham}

/-- **C97** the constructor on another map gives the same spaces, quadrature and extraction with the metric of that map. -/
theorem C97_built (h : DeRham.mk? ns ps q types F polar dirichlet = .ok D) (F' : V3 → V3) :
    DeRham.mk? ns ps q types F' polar dirichlet = .ok (withMap D F') := by
  obtain ⟨S, hS, ⟨rfl, rfl⟩ | ⟨rfl, rfl⟩⟩ := Admissible.cases' h
  · simp [DeRham.mk?, hS, withMap, DeRham.ofPolar]
  · simp [DeRham.mk?, hS, withMap, DeRham.ofBoundary]

/-! ## Rigid motions -/

/-- **C97** a rigid motion changes nothing but the map itself: the metric tables, hence every matrix assembled from them, are identical, for every map. -/
theorem C97_rigid {R : M33} (hR : IsRotation R) (b : V3) (h : DeRham.mk? ns ps q types F polar dirichlet = .ok D) :
    DeRham.mk? ns ps q types (similarity 1 R b F) polar dirichlet = .ok { D with F := similarity 1 R b F } := by
  rw [C97_built h]
  congr 1
  have : Metric.ofMap (similarity 1 R b F) (D.S.Q.x.map toV3) = D.g := by
    rw [(Admissible.metric h).1]
    simp only [Metric.ofMap, jacobianDeterminant, jacfwd_similarity one_ne_zero hR, one_smul, det_mul, hR.det, one_mul, transpose_mul]
    congr 1 <;> funext j
    · rw [Matrix.mul_assoc, ← Matrix.mul_assoc Rᵀ, hR.orth, Matrix.one_mul]
    · rw [Matrix.mul_assoc, ← Matrix.mul_assoc Rᵀ, hR.orth, Matrix.one_mul]
  unfold withMap
  rw [this]

/-! ## Change of units -/

theorem assemble_scale {g1 g2 : Getter} {nq d n1 n2 : Nat} {W W' : Nat → Matrix (Fin d) (Fin d) ℝ} {c : ℝ} (h : ∀ j < nq, W' j = c • W j) :
    assemble g1 g2 nq d W' n1 n2 = c • assemble g1 g2 nq d W n1 n2 := by
  ext a b
  simp only [assemble, Matrix.smul_apply, smul_eq_mul, Finset.mul_sum]
  refine Finset.sum_congr rfl fun j hj => Finset.sum_congr rfl fun k _ => Finset.sum_congr rfl fun m _ => ?_
  rw [h j (Finset.mem_range.1 hj)]
  simp only [Matrix.smul_apply, smul_eq_mul]
  ring

/-- The metric tables at the quadrature points in the other units. -/
structure Rescaled (D : DeRham) (F' : V3 → V3) (s : ℝ) : Prop where
  pos : 0 < s
  J : ∀ j < D.nq, (Metric.ofMap F' (D.S.Q.x.map toV3)).J j = s ^ 3 * D.g.J j
  G : ∀ j < D.nq, (Metric.ofMap F' (D.S.Q.x.map toV3)).G j = s ^ 2 • D.g.G j
  Ginv : ∀ j < D.nq, (Metric.ofMap F' (D.S.Q.x.map toV3)).Ginv j = (s ^ 2)⁻¹ • D.g.Ginv j

theorem rescaled {s : ℝ} (hs : 0 < s) {R : M33} (hR : IsRotation R) (b : V3) (h : Admissible ns ps q types F polar dirichlet D)
    (h' : Admissible ns ps q types (similarity s R b F) polar dirichlet (withMap D (similarity s R b F))) : Rescaled D (similarity s R b F) s := by
  have hg := (Admissible.metric h.built).1
  have m := fun j => C97_metric hs.ne' hR b F (D.S.Q.x.map toV3) j
  have hG : ∀ j, (withMap D (similarity s R b F)).g.G j = s ^ 2 • D.g.G j := fun j => by rw [hg]; exact (m j).2
  refine ⟨hs, fun j _ => by rw [hg]; exact (m j).1, fun j _ => hG j, fun j hj => ?_⟩
  have i1 : D.g.G j * D.g.Ginv j = 1 := h.core.inv j hj
  have i2 : (withMap D (similarity s R b F)).g.G j * (withMap D (similarity s R b F)).g.Ginv j = 1 := h'.core.inv j hj
  rw [hG j, smul_mul_assoc] at i2
  have i3 : D.g.G j * (s ^ 2 • (withMap D (similarity s R b F)).g.Ginv j) = 1 := by rw [mul_smul_comm, i2]
  have e : s ^ 2 • (withMap D (similarity s R b F)).g.Ginv j = D.g.Ginv j := by
    have h1 : D.g.Ginv j * D.g.G j = 1 := mul_eq_one_comm.1 i1
    calc s ^ 2 • (withMap D (similarity s R b F)).g.Ginv j = (D.g.Ginv j * D.g.G j) * (s ^ 2 • (withMap D (similarity s R b F)).g.Ginv j) := by rw [h1, Matrix.one_mul]
      _ = _ := by rw [Matrix.mul_assoc, i3, Matrix.mul_one]
  rw [← e, smul_smul, inv_mul_cancel₀ (pow_ne_zero 2 hs.ne'), one_smul]

theorem inv_scale {n : Nat} (A : Matrix (Fin n) (Fin n) ℝ) {a : ℝ} (ha : a ≠ 0) : (a • A)⁻¹ = a⁻¹ • A⁻¹ := by
  by_cases hA : IsUnit A.det
  · exact inv_eq_left_inv (by rw [smul_mul_smul_comm, nonsing_inv_mul _ hA, inv_mul_cancel₀ ha, one_smul])
  · rw [nonsing_inv_apply_not_isUnit A hA, smul_zero]
    apply nonsing_inv_apply_not_isUnit
    rw [det_smul]
    intro hu
    rw [isUnit_iff_ne_zero] at hu hA
    exact hA fun h0 => hu (by rw [h0, mul_zero])

theorem solve_scale {n m : Nat} (A : Matrix (Fin n) (Fin n) ℝ) (B : Matrix (Fin n) (Fin m) ℝ) {a : ℝ} (ha : a ≠ 0) (b : ℝ) : solve (a • A) (b • B) = (a⁻¹ * b) • solve A B := by
  unfold solve
  rw [inv_scale A ha, Matrix.smul_mul, Matrix.mul_smul, smul_smul]

theorem solve_eq {n m : Nat} {A A' : Matrix (Fin n) (Fin n) ℝ} {B B' : Matrix (Fin n) (Fin m) ℝ} {a b c : ℝ} (hA : A' = a • A) (hB : B' = b • B) (ha : a ≠ 0) (hc : a⁻¹ * b = c) :
    solve A' B' = c • solve A B := by
  rw [hA, hB, solve_scale _ _ ha, hc]

theorem tr_eq {n m : Nat} {A A' : Matrix (Fin n) (Fin m) ℝ} {a : ℝ} (hA : A' = a • A) : A'ᵀ = a • Aᵀ := by rw [hA, transpose_smul]

namespace Rescaled
variable {s : ℝ} {F' : V3 → V3} (h : Rescaled D F' s)
include h

theorem W0 : ∀ j < D.nq, (withMap D F').W0 j = s ^ 3 • D.W0 j := fun j hj => by
  ext k l
  simp only [DeRham.W0, Matrix.smul_apply, smul_eq_mul, h.J j hj]
  change _ * D.w j = _
  ring

theorem W1 : ∀ j < D.nq, (withMap D F').W1 j = s • D.W1 j := fun j hj => by
  ext k l
  simp only [DeRham.W1, Matrix.smul_apply, smul_eq_mul, h.J j hj, h.Ginv j hj]
  change _ * (_ * D.w j) = _
  have := h.pos.ne'
  field_simp

theorem W2 : ∀ j < D.nq, (withMap D F').W2 j = s⁻¹ • D.W2 j := fun j hj => by
  ext k l
  simp only [DeRham.W2, Matrix.smul_apply, smul_eq_mul, h.J j hj, h.G j hj]
  change _ * (_ * D.w j) = _
  have := h.pos.ne'
  field_simp

theorem W3 : ∀ j < D.nq, (withMap D F').W3 j = (s ^ 3)⁻¹ • D.W3 j := fun j hj => by
  ext k l
  simp only [DeRham.W3, Matrix.smul_apply, smul_eq_mul, h.J j hj]
  change _ * D.w j = _
  have := h.pos.ne'
  field_simp

theorem M0 : ((withMap D F').M0 : Matrix (Fin D.m0) (Fin D.m0) ℝ) = s ^ 3 • D.M0 := by
  change D.E0 * assemble D.S.getLambda0 D.S.getLambda0 D.nq 1 (withMap D F').W0 D.S.L0.dims.n D.S.L0.dims.n * D.E0ᵀ = _
  rw [assemble_scale h.W0, Matrix.mul_smul, Matrix.smul_mul]
  rfl

theorem M1 : ((withMap D F').M1 : Matrix (Fin D.m1) (Fin D.m1) ℝ) = s • D.M1 := by
  change D.E1 * assemble D.S.getLambda1 D.S.getLambda1 D.nq 3 (withMap D F').W1 D.S.L1.dims.n D.S.L1.dims.n * D.E1ᵀ = _
  rw [assemble_scale h.W1, Matrix.mul_smul, Matrix.smul_mul]
  rfl

theorem M2 : ((withMap D F').M2 : Matrix (Fin D.m2) (Fin D.m2) ℝ) = s⁻¹ • D.M2 := by
  change D.E2 * assemble D.S.getLambda2 D.S.getLambda2 D.nq 3 (withMap D F').W2 D.S.L2.dims.n D.S.L2.dims.n * D.E2ᵀ = _
  rw [assemble_scale h.W2, Matrix.mul_smul, Matrix.smul_mul]
  rfl

theorem M3 : ((withMap D F').M3 : Matrix (Fin D.m3) (Fin D.m3) ℝ) = (s ^ 3)⁻¹ • D.M3 := by
  change D.E3 * assemble D.S.getLambda3 D.S.getLambda3 D.nq 1 (withMap D F').W3 D.S.L3.dims.n D.S.L3.dims.n * D.E3ᵀ = _
  rw [assemble_scale h.W3, Matrix.mul_smul, Matrix.smul_mul]
  rfl

theorem D0 : ((withMap D F').D0 : Matrix (Fin D.m1) (Fin D.m0) ℝ) = s • D.D0 := by
  change D.E1 * assemble D.S.getLambda1 D.S.getDLambda0 D.nq 3 (withMap D F').W1 D.S.L1.dims.n D.S.L0.dims.n * D.E0ᵀ = _
  rw [assemble_scale h.W1, Matrix.mul_smul, Matrix.smul_mul]
  rfl

theorem D1 : ((withMap D F').D1 : Matrix (Fin D.m2) (Fin D.m1) ℝ) = s⁻¹ • D.D1 := by
  change D.E2 * assemble D.S.getLambda2 D.S.getDLambda1 D.nq 3 (withMap D F').W2 D.S.L2.dims.n D.S.L1.dims.n * D.E1ᵀ = _
  rw [assemble_scale h.W2, Matrix.mul_smul, Matrix.smul_mul]
  rfl

theorem D2 : ((withMap D F').D2 : Matrix (Fin D.m3) (Fin D.m2) ℝ) = (s ^ 3)⁻¹ • D.D2 := by
  change D.E3 * assemble D.S.getLambda3 D.S.getDLambda2 D.nq 1 (withMap D F').W3 D.S.L3.dims.n D.S.L2.dims.n * D.E2ᵀ = _
  rw [assemble_scale h.W3, Matrix.mul_smul, Matrix.smul_mul]
  rfl

theorem strongGrad : ((withMap D F').strongGrad : Matrix (Fin D.m1) (Fin D.m0) ℝ) = D.strongGrad :=
  (solve_eq (c := 1) h.M1 h.D0 h.pos.ne' (by have := h.pos.ne'; field_simp)).trans (one_smul ℝ _)

theorem strongCurl : ((withMap D F').strongCurl : Matrix (Fin D.m2) (Fin D.m1) ℝ) = D.strongCurl :=
  (solve_eq (c := 1) h.M2 h.D1 (inv_ne_zero h.pos.ne') (by have := h.pos.ne'; field_simp)).trans (one_smul ℝ _)

theorem strongDiv : ((withMap D F').strongDiv : Matrix (Fin D.m3) (Fin D.m2) ℝ) = D.strongDiv :=
  (solve_eq (c := 1) h.M3 h.D2 (inv_ne_zero (pow_ne_zero 3 h.pos.ne')) (by have := h.pos.ne'; field_simp)).trans (one_smul ℝ _)

theorem weakDiv : ((withMap D F').weakDiv : Matrix (Fin D.m0) (Fin D.m1) ℝ) = (s ^ 2)⁻¹ • D.weakDiv :=
  (congrArg Neg.neg (solve_eq (c := (s ^ 2)⁻¹) (tr_eq h.M0) (tr_eq h.D0) (pow_ne_zero 3 h.pos.ne') (by have := h.pos.ne'; field_simp))).trans (smul_neg _ _).symm

theorem weakCurl : ((withMap D F').weakCurl : Matrix (Fin D.m1) (Fin D.m2) ℝ) = (s ^ 2)⁻¹ • D.weakCurl :=
  solve_eq (c := (s ^ 2)⁻¹) (tr_eq h.M1) (tr_eq h.D1) h.pos.ne' (by have := h.pos.ne'; field_simp)

theorem weakGrad : ((withMap D F').weakGrad : Matrix (Fin D.m2) (Fin D.m3) ℝ) = (s ^ 2)⁻¹ • D.weakGrad :=
  (congrArg Neg.neg (solve_eq (c := (s ^ 2)⁻¹) (tr_eq h.M2) (tr_eq h.D2) (inv_ne_zero h.pos.ne') (by have := h.pos.ne'; field_simp))).trans (smul_neg _ _).symm

theorem gradgrad : D.E0 * assemble D.S.getDLambda0 D.S.getDLambda0 D.nq 3 (withMap D F').W1 D.S.L0.dims.n D.S.L0.dims.n * D.E0ᵀ =
    s • (D.E0 * assemble D.S.getDLambda0 D.S.getDLambda0 D.nq 3 D.W1 D.S.L0.dims.n D.S.L0.dims.n * D.E0ᵀ) := by
  rw [assemble_scale h.W1, Matrix.mul_smul, Matrix.smul_mul]

theorem curlcurl : D.E1 * assemble D.S.getDLambda1 D.S.getDLambda1 D.nq 3 (withMap D F').W2 D.S.L1.dims.n D.S.L1.dims.n * D.E1ᵀ =
    s⁻¹ • (D.E1 * assemble D.S.getDLambda1 D.S.getDLambda1 D.nq 3 D.W2 D.S.L1.dims.n D.S.L1.dims.n * D.E1ᵀ) := by
  rw [assemble_scale h.W2, Matrix.mul_smul, Matrix.smul_mul]

theorem divdiv : D.E2 * assemble D.S.getDLambda2 D.S.getDLambda2 D.nq 1 (withMap D F').W3 D.S.L2.dims.n D.S.L2.dims.n * D.E2ᵀ =
    (s ^ 3)⁻¹ • (D.E2 * assemble D.S.getDLambda2 D.S.getDLambda2 D.nq 1 D.W3 D.S.L2.dims.n D.S.L2.dims.n * D.E2ᵀ) := by
  rw [assemble_scale h.W3, Matrix.mul_smul, Matrix.smul_mul]

theorem dd0 : ((withMap D F').dd0 : Matrix (Fin D.m0) (Fin D.m0) ℝ) = (s ^ 2)⁻¹ • D.dd0 :=
  solve_eq h.M0 h.gradgrad (pow_ne_zero 3 h.pos.ne') (by have := h.pos.ne'; field_simp)

theorem dd1 : ((withMap D F').dd1 : Matrix (Fin D.m1) (Fin D.m1) ℝ) = (s ^ 2)⁻¹ • D.dd1 := by
  have e1 := solve_eq (c := (s ^ 2)⁻¹) h.M1 h.curlcurl h.pos.ne' (by have := h.pos.ne'; field_simp)
  have e2 : ((withMap D F').strongGrad : Matrix (Fin D.m1) (Fin D.m0) ℝ) * ((withMap D F').weakDiv : Matrix (Fin D.m0) (Fin D.m1) ℝ) = (s ^ 2)⁻¹ • (D.strongGrad * D.weakDiv) := by
    rw [h.strongGrad, h.weakDiv, Matrix.mul_smul]
  exact (congrArg₂ (· - ·) e1 e2).trans (smul_sub _ _ _).symm

theorem dd2 : ((withMap D F').dd2 : Matrix (Fin D.m2) (Fin D.m2) ℝ) = (s ^ 2)⁻¹ • D.dd2 := by
  have e1 := solve_eq (c := (s ^ 2)⁻¹) h.M2 h.divdiv (inv_ne_zero h.pos.ne') (by have := h.pos.ne'; field_simp)
  have e2 : ((withMap D F').strongCurl : Matrix (Fin D.m2) (Fin D.m1) ℝ) * ((withMap D F').weakCurl : Matrix (Fin D.m1) (Fin D.m2) ℝ) = (s ^ 2)⁻¹ • (D.strongCurl * D.weakCurl) := by
    rw [h.strongCurl, h.weakCurl, Matrix.mul_smul]
  exact (congrArg₂ (· + ·) e1 e2).trans (smul_add _ _ _).symm

theorem dd3 : ((withMap D F').dd3 : Matrix (Fin D.m3) (Fin D.m3) ℝ) = (s ^ 2)⁻¹ • D.dd3 := by
  have e2 : -((withMap D F').strongDiv : Matrix (Fin D.m3) (Fin D.m2) ℝ) * ((withMap D F').weakGrad : Matrix (Fin D.m2) (Fin D.m3) ℝ) = (s ^ 2)⁻¹ • (-D.strongDiv * D.weakGrad) := by
    rw [h.strongDiv, h.weakGrad, Matrix.mul_smul]
  exact e2

theorem M12 : ((withMap D F').M12 : Matrix (Fin D.m1) (Fin D.m2) ℝ) = D.M12 := rfl

theorem P12 : ((withMap D F').P12 : Matrix (Fin D.m1) (Fin D.m2) ℝ) = s⁻¹ • D.P12 :=
  solve_eq h.M1 (one_smul ℝ D.M12).symm h.pos.ne' (mul_one _)

theorem P03 : ((withMap D F').P03 : Matrix (Fin D.m0) (Fin D.m3) ℝ) = (s ^ 3)⁻¹ • D.P03 :=
  solve_eq h.M0 (one_smul ℝ _).symm (pow_ne_zero 3 h.pos.ne') (mul_one _)

theorem norm2 (B : Fin D.m2 → ℝ) : (withMap D F').norm2 B = (Real.sqrt s)⁻¹ * D.norm2 B := by
  change Real.sqrt (B ⬝ᵥ ((withMap D F').M2 : Matrix (Fin D.m2) (Fin D.m2) ℝ) *ᵥ B) = _
  rw [h.M2, smul_mulVec, dotProduct_smul, smul_eq_mul, Real.sqrt_mul (inv_nonneg.2 h.pos.le), Real.sqrt_inv]
  rfl

theorem integrate {g : Getter} {nq d n : Nat} {w w' : Nat → Fin d → ℝ} {c : ℝ} (hw : ∀ j < nq, ∀ k, w' j k = c * w j k) :
    integrateAgainst g nq d w' n = c • integrateAgainst g nq d w n := by
  funext i
  simp only [integrateAgainst, Pi.smul_apply, smul_eq_mul, Finset.mul_sum]
  refine Finset.sum_congr rfl fun j hj => Finset.sum_congr rfl fun k _ => ?_
  rw [hw j (Finset.mem_range.1 hj) k]
  ring

omit h in
theorem fieldAt_smul (D : DeRham) (a : DeRham.Deg) (c : ℝ) (w : Fin (D.mdim a) → ℝ) (j : Nat) : D.fieldAt a (c • w) j = c • D.fieldAt a w j := by
  funext k
  simp only [DeRham.fieldAt, evaluateAtXq, mulVec_smul, Pi.smul_apply, smul_eq_mul, Finset.mul_sum]
  exact Finset.sum_congr rfl fun i _ => by ring

omit h in
theorem einsumT_smul (A : M33) (a b : ℝ) (v : V3) : DeRham.einsumT (a • A) (b • v) = (a * b) • DeRham.einsumT A v := by
  funext l
  simp only [DeRham.einsumT, Matrix.smul_apply, Pi.smul_apply, smul_eq_mul, Finset.mul_sum]
  exact Finset.sum_congr rfl fun i _ => by ring

theorem P1x1to2 (a b : ℝ) (v w : Fin D.m1 → ℝ) : ((withMap D F').P1x1to2 (a • v) (b • w) : Fin D.m2 → ℝ) = (s⁻¹ * (a * b)) • D.P1x1to2 v w := by
  have e : ∀ (D : DeRham) (v w : Fin D.m1 → ℝ), D.P1x1to2 v w = D.E2 *ᵥ integrateAgainst D.S.getLambda2 D.nq 3
      (fun j k => DeRham.einsumT (D.g.G j) (crossProduct (D.fieldAt .one v j) (D.fieldAt .one w j)) k * (D.w j / D.g.J j)) D.S.L2.dims.n := fun _ _ _ => rfl
  rw [e D]
  refine (e (withMap D F') _ _).trans ?_
  rw [← mulVec_smul]
  congr 1
  refine integrate h fun j hj k => ?_
  change DeRham.einsumT ((Metric.ofMap F' (D.S.Q.x.map toV3)).G j) (crossProduct (D.fieldAt .one (a • v) j) (D.fieldAt .one (b • w) j)) k *
    (D.w j / (Metric.ofMap F' (D.S.Q.x.map toV3)).J j) = _
  have f1 : D.fieldAt .one (a • v) j = a • D.fieldAt .one v j := fieldAt_smul D .one a v j
  have f2 : D.fieldAt .one (b • w) j = b • D.fieldAt .one w j := fieldAt_smul D .one b w j
  rw [h.G j hj, h.J j hj, f1, f2, LinearMap.map_smul₂, map_smul, smul_smul, einsumT_smul]
  simp only [Pi.smul_apply, smul_eq_mul]
  have := h.pos.ne'
  by_cases hJ : D.g.J j = 0
  · simp [hJ]
  · field_simp

theorem P2x1to1 (a b : ℝ) (u : Fin D.m2 → ℝ) (w : Fin D.m1 → ℝ) : ((withMap D F').P2x1to1 (a • u) (b • w) : Fin D.m1 → ℝ) = (s⁻¹ * (a * b)) • D.P2x1to1 u w := by
  have e : ∀ (D : DeRham) (u : Fin D.m2 → ℝ) (w : Fin D.m1 → ℝ), D.P2x1to1 u w = D.E1 *ᵥ integrateAgainst D.S.getLambda1 D.nq 3
      (fun j k => crossProduct (DeRham.einsumT (D.g.G j) (D.fieldAt .two u j)) (D.fieldAt .one w j) k * (D.w j / D.g.J j)) D.S.L1.dims.n := fun _ _ _ => rfl
  rw [e D]
  refine (e (withMap D F') _ _).trans ?_
  rw [← mulVec_smul]
  congr 1
  refine integrate h fun j hj k => ?_
  change crossProduct (DeRham.einsumT ((Metric.ofMap F' (D.S.Q.x.map toV3)).G j) (D.fieldAt .two (a • u) j)) (D.fieldAt .one (b • w) j) k *
    (D.w j / (Metric.ofMap F' (D.S.Q.x.map toV3)).J j) = _
  have f1 : D.fieldAt .two (a • u) j = a • D.fieldAt .two u j := fieldAt_smul D .two a u j
  have f2 : D.fieldAt .one (b • w) j = b • D.fieldAt .one w j := fieldAt_smul D .one b w j
  rw [h.G j hj, h.J j hj, f1, f2, einsumT_smul, LinearMap.map_smul₂, map_smul, smul_smul]
  simp only [Pi.smul_apply, smul_eq_mul]
  have := h.pos.ne'
  by_cases hJ : D.g.J j = 0
  · simp [hJ]
  · field_simp

theorem leray (X : Matrix (Fin D.m3) (Fin D.m3) ℝ) : ((withMap D F').leray (s ^ 2 • X) : Matrix (Fin D.m2) (Fin D.m2) ℝ) = D.leray X := by
  change 1 + ((withMap D F').weakGrad : Matrix (Fin D.m2) (Fin D.m3) ℝ) * (s ^ 2 • X) * ((withMap D F').strongDiv : Matrix (Fin D.m3) (Fin D.m2) ℝ) = _
  rw [h.weakGrad, h.strongDiv, Matrix.smul_mul, Matrix.mul_smul, smul_smul, inv_mul_cancel₀ (pow_ne_zero 2 h.pos.ne'), one_smul]
  rfl

theorem M1inv : (((withMap D F').M1 : Matrix (Fin D.m1) (Fin D.m1) ℝ))⁻¹ = s⁻¹ • D.M1⁻¹ := by rw [h.M1, inv_scale _ h.pos.ne']
theorem M2inv : (((withMap D F').M2 : Matrix (Fin D.m2) (Fin D.m2) ℝ))⁻¹ = s • D.M2⁻¹ := by rw [h.M2, inv_scale _ (inv_ne_zero h.pos.ne'), inv_inv]

theorem vectorPotential (B : Fin D.m2 → ℝ) : ((withMap D F').vectorPotential B : Fin D.m1 → ℝ) = D.vectorPotential B := by
  change ((withMap D F').dd1 : Matrix (Fin D.m1) (Fin D.m1) ℝ)⁻¹ *ᵥ (((withMap D F').weakCurl : Matrix (Fin D.m1) (Fin D.m2) ℝ) *ᵥ B) = _
  rw [h.dd1, h.weakCurl, inv_scale _ (inv_ne_zero (pow_ne_zero 2 h.pos.ne')), smul_mulVec, smul_mulVec, mulVec_smul, smul_smul, inv_inv,
    mul_inv_cancel₀ (pow_ne_zero 2 h.pos.ne'), one_smul]
  rfl

theorem harmonicComponent (B : Fin D.m2 → ℝ) : ((withMap D F').harmonicComponent B : Fin D.m2 → ℝ) = D.harmonicComponent B := by
  change B - ((withMap D F').strongCurl : Matrix (Fin D.m2) (Fin D.m1) ℝ) *ᵥ ((withMap D F').vectorPotential B : Fin D.m1 → ℝ) = _
  rw [h.strongCurl, h.vectorPotential]
  rfl

theorem energy (B : Fin D.m2 → ℝ) : (withMap D F').energy B = s⁻¹ * D.energy B := by
  change 0.5 * (B ⬝ᵥ ((withMap D F').M2 : Matrix (Fin D.m2) (Fin D.m2) ℝ) *ᵥ B) = _
  rw [h.M2, smul_mulVec, dotProduct_smul, smul_eq_mul]
  unfold DeRham.energy
  ring

theorem helicity (B : Fin D.m2 → ℝ) : (withMap D F').helicity B = D.helicity B := by
  change ((withMap D F').vectorPotential B : Fin D.m1 → ℝ) ⬝ᵥ ((withMap D F').M1 : Matrix (Fin D.m1) (Fin D.m1) ℝ) *ᵥ (((withMap D F').P12 : Matrix (Fin D.m1) (Fin D.m2) ℝ) *ᵥ
    (B + ((withMap D F').harmonicComponent B : Fin D.m2 → ℝ))) = _
  rw [h.vectorPotential, h.harmonicComponent, h.M1, h.P12, smul_mulVec, smul_mulVec, mulVec_smul, smul_smul, mul_inv_cancel₀ h.pos.ne', one_smul]
  rfl

theorem divergenceNorm (B : Fin D.m2 → ℝ) : (withMap D F').divergenceNorm B = (Real.sqrt (s ^ 3))⁻¹ * D.divergenceNorm B := by
  change Real.sqrt ((((withMap D F').strongDiv : Matrix (Fin D.m3) (Fin D.m2) ℝ) *ᵥ B) ⬝ᵥ ((withMap D F').M3 : Matrix (Fin D.m3) (Fin D.m3) ℝ) *ᵥ
    (((withMap D F').strongDiv : Matrix (Fin D.m3) (Fin D.m2) ℝ) *ᵥ B)) = _
  rw [h.strongDiv, h.M3, smul_mulVec, dotProduct_smul, smul_eq_mul, Real.sqrt_mul (inv_nonneg.2 (pow_nonneg h.pos.le 3)), Real.sqrt_inv]
  rfl

end Rescaled

/-! ## The statements -/

section
variable {s : ℝ} (hs : 0 < s) {R : M33} (hR : IsRotation R) (b : V3) (h : Admissible ns ps q types F polar dirichlet D)
include hs hR h

/-- **C97** when a regular device stays regular in the other units: exactly if the rescaled Jacobian stays above the threshold of the inversion, in particular for every `s ≥ 1`. -/
theorem C97_regular_iff : (Admissible ns ps q types (similarity s R b F) polar dirichlet (withMap D (similarity s R b F)) ↔
      ∀ x ∈ D.S.Q.x, 1e-5 ≤ s ^ 3 * jacobianDeterminant F (toV3 x)) ∧
    (1 ≤ s → Admissible ns ps q types (similarity s R b F) polar dirichlet (withMap D (similarity s R b F))) := by
  have hJ : ∀ x, jacobianDeterminant (similarity s R b F) x = s ^ 3 * jacobianDeterminant F x := fun x => by
    simp only [jacobianDeterminant, jacfwd_similarity hs.ne' hR, det_smul, det_mul, hR.det, one_mul]
    simp
  have iff : Admissible ns ps q types (similarity s R b F) polar dirichlet (withMap D (similarity s R b F)) ↔
      ∀ x ∈ D.S.Q.x, 1e-5 ≤ s ^ 3 * jacobianDeterminant F (toV3 x) := by
    constructor
    · intro h' x hx
      rw [← hJ]
      exact h'.regular x hx
    · intro h'
      exact { built := C97_built h.built _, q10 := h.q10, r := h.r, t := h.t, z := h.z, polar := h.polar, regular := fun x hx => by rw [hJ]; exact h' x hx }
  refine ⟨iff, fun h1 => iff.2 fun x hx => ?_⟩
  have h3 : (1 : ℝ) ≤ s ^ 3 := one_le_pow₀ h1
  have := h.regular x hx
  have h0 : 0 < jacobianDeterminant F (toV3 x) := lt_of_lt_of_le (by norm_num) this
  nlinarith

variable (h' : Admissible ns ps q types (similarity s R b F) polar dirichlet (withMap D (similarity s R b F)))
include h'

/-- **C97** the mass matrices of a `k`-form are in units of length to the power `3 - 2k`. -/
theorem C97_mass : ((withMap D (similarity s R b F)).M0 : Matrix (Fin D.m0) (Fin D.m0) ℝ) = s ^ 3 • D.M0 ∧
    ((withMap D (similarity s R b F)).M1 : Matrix (Fin D.m1) (Fin D.m1) ℝ) = s • D.M1 ∧
    ((withMap D (similarity s R b F)).M2 : Matrix (Fin D.m2) (Fin D.m2) ℝ) = s⁻¹ • D.M2 ∧
    ((withMap D (similarity s R b F)).M3 : Matrix (Fin D.m3) (Fin D.m3) ℝ) = (s ^ 3)⁻¹ • D.M3 := by
  have r := rescaled hs hR b h h'
  exact ⟨r.M0, r.M1, r.M2, r.M3⟩

/-- **C97** gradient, curl and divergence do not depend on the units. -/
theorem C97_strong : ((withMap D (similarity s R b F)).strongGrad : Matrix (Fin D.m1) (Fin D.m0) ℝ) = D.strongGrad ∧
    ((withMap D (similarity s R b F)).strongCurl : Matrix (Fin D.m2) (Fin D.m1) ℝ) = D.strongCurl ∧
    ((withMap D (similarity s R b F)).strongDiv : Matrix (Fin D.m3) (Fin D.m2) ℝ) = D.strongDiv := by
  have r := rescaled hs hR b h h'
  exact ⟨r.strongGrad, r.strongCurl, r.strongDiv⟩

/-- **C97** the weak operators and the Laplacians are in units of one over length squared. -/
theorem C97_weak : ((withMap D (similarity s R b F)).weakDiv : Matrix (Fin D.m0) (Fin D.m1) ℝ) = (s ^ 2)⁻¹ • D.weakDiv ∧
    ((withMap D (similarity s R b F)).weakCurl : Matrix (Fin D.m1) (Fin D.m2) ℝ) = (s ^ 2)⁻¹ • D.weakCurl ∧
    ((withMap D (similarity s R b F)).weakGrad : Matrix (Fin D.m2) (Fin D.m3) ℝ) = (s ^ 2)⁻¹ • D.weakGrad ∧
    ((withMap D (similarity s R b F)).dd0 : Matrix (Fin D.m0) (Fin D.m0) ℝ) = (s ^ 2)⁻¹ • D.dd0 ∧
    ((withMap D (similarity s R b F)).dd1 : Matrix (Fin D.m1) (Fin D.m1) ℝ) = (s ^ 2)⁻¹ • D.dd1 ∧
    ((withMap D (similarity s R b F)).dd2 : Matrix (Fin D.m2) (Fin D.m2) ℝ) = (s ^ 2)⁻¹ • D.dd2 ∧
    ((withMap D (similarity s R b F)).dd3 : Matrix (Fin D.m3) (Fin D.m3) ℝ) = (s ^ 2)⁻¹ • D.dd3 := by
  have r := rescaled hs hR b h h'
  exact ⟨r.weakDiv, r.weakCurl, r.weakGrad, r.dd0, r.dd1, r.dd2, r.dd3⟩

/-- **C97** the Hodge maps of `assemble_P12`, `assemble_P03`, and the Leray projection, which does not depend on the units (with the pseudo-inverse of the matrix at hand). -/
theorem C97_hodge_leray : ((withMap D (similarity s R b F)).P12 : Matrix (Fin D.m1) (Fin D.m2) ℝ) = s⁻¹ • D.P12 ∧
    ((withMap D (similarity s R b F)).P03 : Matrix (Fin D.m0) (Fin D.m3) ℝ) = (s ^ 3)⁻¹ • D.P03 ∧
    ∀ X X' : Matrix (Fin D.m3) (Fin D.m3) ℝ, IsPinv D.dd3 X → IsPinv ((withMap D (similarity s R b F)).dd3 : Matrix (Fin D.m3) (Fin D.m3) ℝ) X' →
      X' = s ^ 2 • X ∧ ((withMap D (similarity s R b F)).leray X' : Matrix (Fin D.m2) (Fin D.m2) ℝ) = D.leray X := by
  have r := rescaled hs hR b h h'
  refine ⟨r.P12, r.P03, fun X X' hX hX' => ?_⟩
  have e := r.dd3
  have s2 : s ^ 2 ≠ 0 := pow_ne_zero 2 hs.ne'
  have hX'' : IsPinv ((withMap D (similarity s R b F)).dd3 : Matrix (Fin D.m3) (Fin D.m3) ℝ) (s ^ 2 • X) := by
    rw [e]
    constructor
    · simp only [Matrix.smul_mul, Matrix.mul_smul, smul_smul, inv_mul_cancel₀ s2, mul_one, hX.axa]
      rw [mul_inv_cancel₀ s2, mul_one]
    · simp only [Matrix.smul_mul, Matrix.mul_smul, smul_smul, hX.xax]
      rw [inv_mul_cancel₀ s2, mul_one]
    · simp only [Matrix.smul_mul, Matrix.mul_smul, smul_smul, inv_mul_cancel₀ s2, mul_inv_cancel₀ s2, one_smul, hX.ax]
    · simp only [Matrix.smul_mul, Matrix.mul_smul, smul_smul, inv_mul_cancel₀ s2, mul_inv_cancel₀ s2, one_smul, hX.xa]
  have e2 := pinv_unique hX' hX''
  refine ⟨e2, ?_⟩
  rw [e2]
  exact r.leray X

/-- **C97** for the same coefficients the energy is in units of one over length, the helicity does not depend on the units, nor does the harmonic part of a field. -/
theorem C97_diagnostics (B : Fin D.m2 → ℝ) : (withMap D (similarity s R b F)).energy B = s⁻¹ * D.energy B ∧ (withMap D (similarity s R b F)).helicity B = D.helicity B ∧
    ((withMap D (similarity s R b F)).harmonicComponent B : Fin D.m2 → ℝ) = D.harmonicComponent B ∧
    (withMap D (similarity s R b F)).divergenceNorm B = (√(s ^ 3))⁻¹ * D.divergenceNorm B := by
  have r := rescaled hs hR b h h'
  exact ⟨r.energy B, r.helicity B, r.harmonicComponent B, r.divergenceNorm B⟩

/-- **C97** the spectra: `λ` is an eigenvalue of a Laplacian iff `λ / s²` is one in the other units, with the same eigenvectors. -/
theorem C97_spectrum (lam : ℝ) : (∀ v : Fin D.m0 → ℝ, D.dd0 *ᵥ v = lam • v ↔ ((withMap D (similarity s R b F)).dd0 : Matrix (Fin D.m0) (Fin D.m0) ℝ) *ᵥ v = (lam / s ^ 2) • v) ∧
    (∀ v : Fin D.m1 → ℝ, D.dd1 *ᵥ v = lam • v ↔ ((withMap D (similarity s R b F)).dd1 : Matrix (Fin D.m1) (Fin D.m1) ℝ) *ᵥ v = (lam / s ^ 2) • v) ∧
    (∀ v : Fin D.m2 → ℝ, D.dd2 *ᵥ v = lam • v ↔ ((withMap D (similarity s R b F)).dd2 : Matrix (Fin D.m2) (Fin D.m2) ℝ) *ᵥ v = (lam / s ^ 2) • v) ∧
    ∀ v : Fin D.m3 → ℝ, D.dd3 *ᵥ v = lam • v ↔ ((withMap D (similarity s R b F)).dd3 : Matrix (Fin D.m3) (Fin D.m3) ℝ) *ᵥ v = (lam / s ^ 2) • v := by
  have r := rescaled hs hR b h h'
  have s2 : (s ^ 2)⁻¹ ≠ 0 := inv_ne_zero (pow_ne_zero 2 hs.ne')
  have key : ∀ {n : Nat} (A : Matrix (Fin n) (Fin n) ℝ) (v : Fin n → ℝ), A *ᵥ v = lam • v ↔ ((s ^ 2)⁻¹ • A) *ᵥ v = (lam / s ^ 2) • v := fun A v => by
    rw [smul_mulVec, div_eq_inv_mul, ← smul_smul]
    exact (smul_right_injective _ s2).eq_iff.symm
  exact ⟨fun v => by rw [r.dd0]; exact key _ v, fun v => by rw [r.dd1]; exact key _ v, fun v => by rw [r.dd2]; exact key _ v, fun v => by rw [r.dd3]; exact key _ v⟩

/-- **C97** (expected but false: one unit for the Hessian) the two parts of the Hessian have different units, because of the additional mass matrix in the second. -/
theorem C97_hessian (B : Fin D.m2 → ℝ) :
    ((withMap D (similarity s R b F)).hessian B : Matrix (Fin D.m2) (Fin D.m2) ℝ) =
      (s ^ 7)⁻¹ • ((DeRham.columns (D.deltaB B))ᵀ * D.M2 * DeRham.columns (D.deltaB B)) +
      (s ^ 8)⁻¹ • ((1 / 2 : ℝ) • ((DeRham.columns (D.uxJ B))ᵀ * D.M12 * D.M2 * DeRham.columns (D.deltaB B) +
        ((DeRham.columns (D.uxJ B))ᵀ * D.M12 * D.M2 * DeRham.columns (D.deltaB B))ᵀ)) := by
  have r := rescaled hs hR b h h'
  have s1 := hs.ne'
  have hd : (DeRham.columns ((withMap D (similarity s R b F)).deltaB B) : Matrix (Fin D.m2) (Fin D.m2) ℝ) = (s ^ 3)⁻¹ • DeRham.columns (D.deltaB B) := by
    have e : ∀ u : Fin D.m2 → ℝ, ((withMap D (similarity s R b F)).deltaB B u : Fin D.m2 → ℝ) = (s ^ 3)⁻¹ • D.deltaB B u := fun u => by
      change ((withMap D (similarity s R b F)).strongCurl : Matrix (Fin D.m2) (Fin D.m1) ℝ) *ᵥ (((withMap D (similarity s R b F)).M1 : Matrix (Fin D.m1) (Fin D.m1) ℝ)⁻¹ *ᵥ
        ((withMap D (similarity s R b F)).P2x1to1 u (((withMap D (similarity s R b F)).P12 : Matrix (Fin D.m1) (Fin D.m2) ℝ) *ᵥ B) : Fin D.m1 → ℝ)) = _
      have e2 := r.P2x1to1 1 s⁻¹ u (D.P12 *ᵥ B)
      rw [one_smul, ← smul_mulVec, ← r.P12] at e2
      rw [r.strongCurl, r.M1inv, e2, smul_mulVec, mulVec_smul _ _ (D.P2x1to1 u (D.P12 *ᵥ B)), smul_smul, mulVec_smul, show s⁻¹ * (s⁻¹ * (1 * s⁻¹)) = (s ^ 3)⁻¹ by field_simp]
      rfl
    ext i j
    exact congrFun (e (Pi.single j 1)) i
  have hu : (DeRham.columns ((withMap D (similarity s R b F)).uxJ B) : Matrix (Fin D.m1) (Fin D.m2) ℝ) = (s ^ 4)⁻¹ • DeRham.columns (D.uxJ B) := by
    have e : ∀ u : Fin D.m2 → ℝ, ((withMap D (similarity s R b F)).uxJ B u : Fin D.m1 → ℝ) = (s ^ 4)⁻¹ • D.uxJ B u := fun u => by
      change ((withMap D (similarity s R b F)).M1 : Matrix (Fin D.m1) (Fin D.m1) ℝ)⁻¹ *ᵥ
        ((withMap D (similarity s R b F)).P2x1to1 u (((withMap D (similarity s R b F)).weakCurl : Matrix (Fin D.m1) (Fin D.m2) ℝ) *ᵥ B) : Fin D.m1 → ℝ) = _
      have e2 := r.P2x1to1 1 (s ^ 2)⁻¹ u (D.weakCurl *ᵥ B)
      rw [one_smul, ← smul_mulVec, ← r.weakCurl] at e2
      rw [r.M1inv, e2, smul_mulVec, mulVec_smul, smul_smul, show s⁻¹ * (s⁻¹ * (1 * (s ^ 2)⁻¹)) = (s ^ 4)⁻¹ by field_simp]
      rfl
    ext i j
    exact congrFun (e (Pi.single j 1)) i
  change (1 / 2 : ℝ) • (((DeRham.columns ((withMap D (similarity s R b F)).deltaB B) : Matrix (Fin D.m2) (Fin D.m2) ℝ)ᵀ *
      ((withMap D (similarity s R b F)).M2 : Matrix (Fin D.m2) (Fin D.m2) ℝ) * (DeRham.columns ((withMap D (similarity s R b F)).deltaB B) : Matrix (Fin D.m2) (Fin D.m2) ℝ) +
      (DeRham.columns ((withMap D (similarity s R b F)).uxJ B) : Matrix (Fin D.m1) (Fin D.m2) ℝ)ᵀ * D.M12 * ((withMap D (similarity s R b F)).M2 : Matrix (Fin D.m2) (Fin D.m2) ℝ) *
        (DeRham.columns ((withMap D (similarity s R b F)).deltaB B) : Matrix (Fin D.m2) (Fin D.m2) ℝ)) +
    ((DeRham.columns ((withMap D (similarity s R b F)).deltaB B) : Matrix (Fin D.m2) (Fin D.m2) ℝ)ᵀ *
      ((withMap D (similarity s R b F)).M2 : Matrix (Fin D.m2) (Fin D.m2) ℝ) * (DeRham.columns ((withMap D (similarity s R b F)).deltaB B) : Matrix (Fin D.m2) (Fin D.m2) ℝ) +
      (DeRham.columns ((withMap D (similarity s R b F)).uxJ B) : Matrix (Fin D.m1) (Fin D.m2) ℝ)ᵀ * D.M12 * ((withMap D (similarity s R b F)).M2 : Matrix (Fin D.m2) (Fin D.m2) ℝ) *
        (DeRham.columns ((withMap D (similarity s R b F)).deltaB B) : Matrix (Fin D.m2) (Fin D.m2) ℝ))ᵀ) = _
  rw [hd, hu, r.M2]
  have hM : D.M2ᵀ = D.M2 := (mass_sym h.built).2.2.1
  generalize DeRham.columns (D.deltaB B) = X
  generalize DeRham.columns (D.uxJ B) = Y
  have hsym : (Xᵀ * D.M2 * X)ᵀ = Xᵀ * D.M2 * X := by rw [transpose_mul, transpose_mul, transpose_transpose, hM, Matrix.mul_assoc]
  simp only [transpose_smul, Matrix.smul_mul, Matrix.mul_smul, smul_smul, transpose_add]
  rw [show (s ^ 3)⁻¹ * (s⁻¹ * (s ^ 3)⁻¹) = (s ^ 7)⁻¹ by field_simp, show (s ^ 3)⁻¹ * (s⁻¹ * (s ^ 4)⁻¹) = (s ^ 8)⁻¹ by field_simp, hsym]
  generalize Xᵀ * D.M2 * X = P
  generalize Yᵀ * D.M12 * D.M2 * X = Q
  ext i j
  simp only [Matrix.smul_apply, Matrix.add_apply, transpose_apply, smul_eq_mul]
  ring

/-- **C97** (expected but false: the regularisation is independent of units) `(1 + dd2)⁻¹` smooths over the length 1 in whatever unit is used: over `1 / s` of the original device. -/
theorem C97_regularisation : (1 + ((withMap D (similarity s R b F)).dd2 : Matrix (Fin D.m2) (Fin D.m2) ℝ))⁻¹ = (1 + (s ^ 2)⁻¹ • D.dd2)⁻¹ ∧
    (1 + ((withMap D (similarity s R b F)).dd2 : Matrix (Fin D.m2) (Fin D.m2) ℝ))⁻¹ = s ^ 2 • (s ^ 2 • 1 + D.dd2)⁻¹ := by
  have r := rescaled hs hR b h h'
  have s2 : s ^ 2 ≠ 0 := pow_ne_zero 2 hs.ne'
  have e : (1 + (s ^ 2)⁻¹ • D.dd2) = (s ^ 2)⁻¹ • (s ^ 2 • (1 : Matrix (Fin D.m2) (Fin D.m2) ℝ) + D.dd2) := by rw [smul_add, smul_smul, inv_mul_cancel₀ s2, one_smul]
  rw [r.dd2]
  refine ⟨rfl, ?_⟩
  rw [e, inv_scale _ (inv_ne_zero s2), inv_inv]

end

/-- **C97** (expected but false: results do not depend on the unit of length) every device is too small in some unit: below a threshold the 1-form mass matrix is zero. -/
theorem C97_small_units (h : Admissible ns ps q types F polar dirichlet D) {R : M33} (hR : IsRotation R) (b : V3) :
    ∃ s0 > 0, ∀ s, 0 < s → s < s0 → ((withMap D (similarity s R b F)).M1 : Matrix (Fin D.m1) (Fin D.m1) ℝ) = 0 := by
  obtain ⟨K, hK0, hK⟩ : ∃ K : ℝ, 0 < K ∧ ∀ j < D.nq, D.g.J j ≤ K := by
    refine ⟨1 + ∑ j ∈ Finset.range D.nq, |D.g.J j|, by positivity, fun j hj => ?_⟩
    have := Finset.single_le_sum (f := fun j => |D.g.J j|) (fun i _ => abs_nonneg _) (Finset.mem_range.2 hj)
    have h2 := le_abs_self (D.g.J j)
    linarith
  refine ⟨min 1 (1e-5 / K), lt_min one_pos (by positivity), fun s hs hs0 => ?_⟩
  have h1 : s < 1 := lt_of_lt_of_le hs0 (min_le_left _ _)
  have h2 : s < 1e-5 / K := lt_of_lt_of_le hs0 (min_le_right _ _)
  have h3 : s ^ 3 ≤ s := by
    have : s ^ 2 ≤ 1 := pow_le_one₀ hs.le h1.le
    calc s ^ 3 = s ^ 2 * s := by ring
      _ ≤ 1 * s := mul_le_mul_of_nonneg_right this hs.le
      _ = s := one_mul s
  have hg := (Admissible.metric h.built).1
  have hz : ∀ j < D.nq, (withMap D (similarity s R b F)).W1 j = (0 : ℝ) • D.W1 j := by
    intro j hj
    obtain ⟨a1, a2⟩ := h.pointAt hj
    have hJ : (Metric.ofMap F (D.S.Q.x.map toV3)).J j = jacobianDeterminant F (toV3 (D.S.point j)) := by
      simp only [Metric.ofMap]
      rw [List.getD_eq_getElem?_getD, a1]; rfl
    have hJ' : jacobianDeterminant (similarity s R b F) (toV3 (D.S.point j)) = s ^ 3 * D.g.J j := by
      rw [hg, hJ]
      simp only [jacobianDeterminant, jacfwd_similarity hs.ne' hR, det_smul, det_mul, hR.det, one_mul]
      simp
    have hpos : 0 < D.g.J j := h.core.J j hj
    have hsmall : |jacobianDeterminant (similarity s R b F) (toV3 (D.S.point j))| < 1e-5 := by
      rw [hJ', abs_of_pos (by positivity)]
      calc s ^ 3 * D.g.J j ≤ s * K := mul_le_mul h3 (hK j hj) hpos.le hs.le
        _ < 1e-5 / K * K := mul_lt_mul_of_pos_right h2 hK0
        _ = 1e-5 := by field_simp
    have := C25_inverse_metric_zero_for_small_jacobian (similarity s R b F) (D.S.Q.x.map toV3) j _ a1 hsmall
    ext k l
    simp only [DeRham.W1, Matrix.smul_apply, zero_smul, this, Matrix.zero_apply, zero_mul]
  change D.E1 * assemble D.S.getLambda1 D.S.getLambda1 D.nq 3 (withMap D (similarity s R b F)).W1 D.S.L1.dims.n D.S.L1.dims.n * D.E1ᵀ = _
  rw [assemble_scale hz, zero_smul, Matrix.mul_zero, Matrix.zero_mul]

theorem isRotation_one : IsRotation 1 := ⟨by simp, by simp⟩

/-- A rotation by a right angle. -/
theorem isRotation_quarter : IsRotation !![0, -1, 0; 1, 0, 0; 0, 0, 1] := by
  constructor
  · ext i j
    fin_cases i <;> fin_cases j <;> simp [Matrix.mul_apply, Fin.sum_univ_three]
  · simp [det_fin_three]

/-- The hypotheses are met: a polar sequence, rotated by a right angle and measured in units half as long. -/
example : ∃ D, Admissible (5, 6, 4) (3, 2, 1) 4 ("clamped", "periodic", "periodic") (fun y => y) true true D ∧
    Admissible (5, 6, 4) (3, 2, 1) 4 ("clamped", "periodic", "periodic") (similarity 2 !![0, -1, 0; 1, 0, 0; 0, 0, 1] ![1, 2, 3] fun y => y) true true
      (withMap D (similarity 2 !![0, -1, 0; 1, 0, 0; 0, 0, 1] ![1, 2, 3] fun y => y)) := by
  obtain ⟨D, hD⟩ := Admissible.example true true
  exact ⟨D, hD, (C97_regular_iff (by norm_num) isRotation_quarter _ hD).2 (by norm_num)⟩

/-! The standard case, turned by a quarter and doubled. -/

example := C97_metric (s := 2) (by norm_num) isRotation_quarter ![1, 2, 3] Case.map [![1, 0, 0], ![0, 1, 0]]
example (polar dirichlet : Bool) := C97_built (Case.adm polar dirichlet).built fun y => (2 : ℝ) • y
example (polar dirichlet : Bool) := C97_rigid isRotation_quarter ![1, 2, 3] (Case.adm polar dirichlet).built
example (polar dirichlet : Bool) := C97_mass (s := 2) (by norm_num) isRotation_quarter ![1, 2, 3] (Case.adm polar dirichlet) ((C97_regular_iff (by norm_num) isRotation_quarter _ (Case.adm polar dirichlet)).2 (by norm_num))
example (polar dirichlet : Bool) := C97_strong (s := 2) (by norm_num) isRotation_quarter ![1, 2, 3] (Case.adm polar dirichlet) ((C97_regular_iff (by norm_num) isRotation_quarter _ (Case.adm polar dirichlet)).2 (by norm_num))
example (polar dirichlet : Bool) := C97_weak (s := 2) (by norm_num) isRotation_quarter ![1, 2, 3] (Case.adm polar dirichlet) ((C97_regular_iff (by norm_num) isRotation_quarter _ (Case.adm polar dirichlet)).2 (by norm_num))
example (polar dirichlet : Bool) := C97_hodge_leray (s := 2) (by norm_num) isRotation_quarter ![1, 2, 3] (Case.adm polar dirichlet) ((C97_regular_iff (by norm_num) isRotation_quarter _ (Case.adm polar dirichlet)).2 (by norm_num))
example (polar dirichlet : Bool) := C97_diagnostics (s := 2) (by norm_num) isRotation_quarter ![1, 2, 3] (Case.adm polar dirichlet) ((C97_regular_iff (by norm_num) isRotation_quarter _ (Case.adm polar dirichlet)).2 (by norm_num))
example (polar dirichlet : Bool) := C97_spectrum (s := 2) (by norm_num) isRotation_quarter ![1, 2, 3] (Case.adm polar dirichlet) ((C97_regular_iff (by norm_num) isRotation_quarter _ (Case.adm polar dirichlet)).2 (by norm_num))
example (polar dirichlet : Bool) := C97_hessian (s := 2) (by norm_num) isRotation_quarter ![1, 2, 3] (Case.adm polar dirichlet) ((C97_regular_iff (by norm_num) isRotation_quarter _ (Case.adm polar dirichlet)).2 (by norm_num))
example (polar dirichlet : Bool) := C97_regularisation (s := 2) (by norm_num) isRotation_quarter ![1, 2, 3] (Case.adm polar dirichlet) ((C97_regular_iff (by norm_num) isRotation_quarter _ (Case.adm polar dirichlet)).2 (by norm_num))

end Mrx.Props
