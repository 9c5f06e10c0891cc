import Verif.Proofs.Case
import Verif.Props.Energy

/-!
# C47, C53: magnetic helicity and the Hessian
-/

set_option linter.unusedSectionVars false
set_option linter.unusedVariables false

namespace Mrx.Props
open Spec Matrix DeRham

section
variable {ns ps : Nat × Nat × Nat} {q : Nat} {types : String × String × String} {F : V3 → V3} {polar dirichlet : Bool} {D : DeRham}
  (h : Admissible ns ps q types F polar dirichlet D)
include h

/-- The helicity in terms of the mixed matrix: `A · (2 B - curl A)`. -/
theorem helicity_eq (B : Fin D.m2 → ℝ) :
    D.helicity B = D.vectorPotential B ⬝ᵥ D.M12 *ᵥ ((2 : ℝ) • B - D.strongCurl *ᵥ D.vectorPotential B) := by
  obtain ⟨m0, m1, m2, m3⟩ := C31_mass_matrices_definite h
  unfold DeRham.helicity DeRham.harmonicComponent P12 solve
  rw [mulVec_mulVec, ← Matrix.mul_assoc, m1.mul_inv, Matrix.one_mul, two_smul]
  congr 2
  abel

/-- If `dd1` is invertible, it can be inverted inside the gradients. -/
theorem gradient_solve (hdd : IsUnit D.dd1.det) (φ : Fin D.m0 → ℝ) :
    ∃ ψ, D.dd1⁻¹ *ᵥ (D.strongGrad *ᵥ φ) = D.strongGrad *ᵥ ψ := by
  have com := (C34_laplacians_commute h).1
  let V := LinearMap.range (toLin' D.strongGrad)
  have hm : ∀ v ∈ V, toLin' D.dd1 v ∈ V := by
    rintro _ ⟨x, rfl⟩
    refine ⟨D.dd0 *ᵥ x, ?_⟩
    simp only [toLin'_apply]
    rw [mulVec_mulVec, ← com, ← mulVec_mulVec]
  let f := (toLin' D.dd1).restrict hm
  have inj : Function.Injective f := by
    intro a b hab
    have : D.dd1 *ᵥ a.1 = D.dd1 *ᵥ b.1 := congrArg Subtype.val hab
    have := congrArg (fun v => D.dd1⁻¹ *ᵥ v) this
    simp only [mulVec_mulVec, nonsing_inv_mul _ hdd, one_mulVec] at this
    exact Subtype.ext this
  obtain ⟨⟨_, ψ, rfl⟩, hx⟩ := (LinearMap.injective_iff_surjective.1 inj) ⟨_, φ, rfl⟩
  refine ⟨ψ, ?_⟩
  have e : D.dd1 *ᵥ (D.strongGrad *ᵥ ψ) = D.strongGrad *ᵥ φ := congrArg Subtype.val hx
  rw [← e, mulVec_mulVec, nonsing_inv_mul _ hdd, one_mulVec]

/-- The vector potential of a curl differs from the given potential by a gradient. -/
theorem vectorPotential_curl (hdd : IsUnit D.dd1.det) (e : Fin D.m1 → ℝ) :
    ∃ ψ, D.vectorPotential (D.strongCurl *ᵥ e) = e + D.strongGrad *ᵥ ψ := by
  have a1 := (C34_laplacians_are_hodge h).2.1
  obtain ⟨ψ, hψ⟩ := gradient_solve h hdd (D.weakDiv *ᵥ e)
  refine ⟨ψ, ?_⟩
  have hw : D.weakCurl *ᵥ (D.strongCurl *ᵥ e) = D.dd1 *ᵥ e + D.strongGrad *ᵥ (D.weakDiv *ᵥ e) := by
    rw [a1, sub_mulVec, ← mulVec_mulVec, ← mulVec_mulVec, sub_add_cancel]
  unfold DeRham.vectorPotential
  rw [hw, mulVec_add, mulVec_mulVec, nonsing_inv_mul _ hdd, one_mulVec, hψ]

/-- The vector potential of the curl of any 1-form has that curl. -/
theorem C47_potential_of_invertible (hdd : IsUnit D.dd1.det) (e : Fin D.m1 → ℝ) :
    D.strongCurl *ᵥ D.vectorPotential (D.strongCurl *ᵥ e) = D.strongCurl *ᵥ e := by
  obtain ⟨ψ, hψ⟩ := vectorPotential_curl h hdd e
  rw [hψ, mulVec_add, mulVec_mulVec _ D.strongCurl D.strongGrad, (C33_exactness h).1, zero_mulVec, add_zero]

end

section
variable {ns ps : Nat × Nat × Nat} {q : Nat} {types : String × String × String} {F : V3 → V3} {polar dirichlet : Bool} {T : Stepper}
  (h : Admissible ns ps q types F polar dirichlet T.D)
include h

/-- Helicity balance of an exact step, from integration by parts: `H' - H = 2 dt E · B_mid`. -/
theorem helicity_rate (hdd : IsUnit T.D.dd1.det)
    (hS : ∀ a b, a ⬝ᵥ T.D.M12 *ᵥ (T.D.strongCurl *ᵥ b) = b ⬝ᵥ T.D.M12 *ᵥ (T.D.strongCurl *ᵥ a))
    (hG : ∀ φ B, T.D.strongDiv *ᵥ B = 0 → (T.D.strongGrad *ᵥ φ) ⬝ᵥ T.D.M12 *ᵥ B = 0)
    (s : T.St) (hdiv : T.D.strongDiv *ᵥ s.Bn = 0) (hs : T.Bnext s = s.Bguess) :
    T.D.helicity (T.Bnext s) - T.D.helicity s.Bn = 2 * s.dt * (T.E s ⬝ᵥ T.D.M12 *ᵥ T.Bmid s) := by
  obtain ⟨ψ, hψ⟩ := vectorPotential_curl h hdd (T.E s)
  have hcurl := C47_potential_of_invertible h hdd (T.E s)
  have dc := (C33_exactness h).2.1
  set c := T.D.strongCurl *ᵥ T.E s with hcdef
  set a := T.D.vectorPotential c with ha
  set A := T.D.vectorPotential s.Bn with hA
  have hA' : T.D.vectorPotential (T.Bnext s) = A + s.dt • a := by
    simp only [hA, ha, DeRham.vectorPotential, Stepper.Bnext, ← hcdef, mulVec_add, mulVec_smul]
  have hmid : T.Bmid s = s.Bn + (s.dt / 2) • c := by
    unfold Stepper.Bmid
    rw [← hs]
    show (1 / 2 : ℝ) • (s.Bn + s.dt • c + s.Bn) = _
    funext i
    simp only [Pi.smul_apply, Pi.add_apply, smul_eq_mul]
    ring
  have hdm : T.D.strongDiv *ᵥ T.Bmid s = 0 := by
    rw [hmid, mulVec_add, mulVec_smul, hdiv, hcdef, mulVec_mulVec, dc, zero_mulVec, smul_zero, add_zero]
  have hE : T.E s ⬝ᵥ T.D.M12 *ᵥ T.Bmid s = a ⬝ᵥ T.D.M12 *ᵥ T.Bmid s := by
    rw [hψ, add_dotProduct, hG ψ _ hdm, add_zero]
  rw [hE, helicity_eq h, helicity_eq h, hA', hmid, ← hA]
  have hN : T.Bnext s = s.Bn + s.dt • c := rfl
  have hsw : a ⬝ᵥ T.D.M12 *ᵥ (T.D.strongCurl *ᵥ A) = A ⬝ᵥ T.D.M12 *ᵥ c := by rw [hS, hcurl]
  rw [hN]
  simp only [mulVec_add, mulVec_sub, mulVec_smul, smul_add, dotProduct_add, dotProduct_sub, add_dotProduct, smul_dotProduct, dotProduct_smul,
    smul_eq_mul, hsw, hcurl]
  ring

/-- The electric field of an ideal step does no work on the midpoint field: `E · B_mid = 0`. -/
theorem ideal_orthogonal (s : T.St) (heta : s.eta = 0) : T.E s ⬝ᵥ T.D.M12 *ᵥ T.Bmid s = 0 := by
  obtain ⟨m0, m1, m2, m3⟩ := C31_mass_matrices_definite h
  unfold Stepper.E
  rw [heta, zero_smul, sub_zero]
  have e : T.D.M12 *ᵥ T.Bmid s = T.D.M1 *ᵥ T.Hh s := by
    unfold Stepper.Hh P12 solve
    rw [mulVec_mulVec, ← Matrix.mul_assoc, m1.mul_inv, Matrix.one_mul]
  rw [e, sym_dot m1.1, mulVec_mulVec, m1.mul_inv, one_mulVec]
  exact (C38_orthogonal_to_arguments h .one .two (T.Hh s) (T.u s)).2 _ (cross_211 h _ _)

/-- **C47** (condition: `dd1` invertible and the mixed matrix satisfies the two integration by parts identities) an exact
ideal step conserves the helicity, for any velocity (regularised, Newton or not), any step size and any divergence-free field. -/
theorem C47_helicity_exact_quadrature (hdd : IsUnit T.D.dd1.det)
    (hS : ∀ a b, a ⬝ᵥ T.D.M12 *ᵥ (T.D.strongCurl *ᵥ b) = b ⬝ᵥ T.D.M12 *ᵥ (T.D.strongCurl *ᵥ a))
    (hG : ∀ φ B, T.D.strongDiv *ᵥ B = 0 → (T.D.strongGrad *ᵥ φ) ⬝ᵥ T.D.M12 *ᵥ B = 0)
    (s : T.St) (hdiv : T.D.strongDiv *ᵥ s.Bn = 0) (hs : T.Bnext s = s.Bguess) (heta : s.eta = 0) :
    T.D.helicity (T.Bnext s) = T.D.helicity s.Bn := by
  have := helicity_rate h hdd hS hG s hdiv hs
  rw [ideal_orthogonal h s heta] at this
  linarith

end

/-! ## C53 -/

/-- **C53** the assembled Hessian is a symmetric matrix, for every sequence and every field. -/
theorem C53_symmetric (D : DeRham) (B : Fin D.m2 → ℝ) : (D.hessian B)ᵀ = D.hessian B := by
  unfold DeRham.hessian
  dsimp only
  rw [transpose_smul, transpose_add, transpose_transpose, add_comm]

/-- **C53** as a bilinear form. -/
theorem C53_bilinear (D : DeRham) (B u v : Fin D.m2 → ℝ) : u ⬝ᵥ D.hessian B *ᵥ v = v ⬝ᵥ D.hessian B *ᵥ u :=
  sym_dot (C53_symmetric D B) u v

theorem columns_mulVec {n m : Nat} (f : (Fin n → ℝ) → Fin m → ℝ) (hf : ∀ (c : ℝ) x y, f (c • x + y) = c • f x + f y) (x : Fin n → ℝ) :
    columns f *ᵥ x = f x := by
  have h0 : f 0 = 0 := by
    have := hf 1 0 0
    simp only [smul_zero, add_zero, one_smul] at this
    exact left_eq_add.1 this
  let L : (Fin n → ℝ) →ₗ[ℝ] (Fin m → ℝ) :=
    { toFun := f, map_add' := fun x y => by simpa using hf 1 x y, map_smul' := fun c x => by simpa [h0] using hf c x 0 }
  have : columns f = LinearMap.toMatrix' L := by
    funext r i
    rw [LinearMap.toMatrix'_apply]
    rfl
  rw [this, ← toLin'_apply, toLin'_toMatrix']
  rfl

section
variable {ns ps : Nat × Nat × Nat} {q : Nat} {types : String × String × String} {F : V3 → V3} {polar dirichlet : Bool} {D : DeRham}
  (h : Admissible ns ps q types F polar dirichlet D)
include h

theorem P2x1to1_linear (Hh : Fin D.m1 → ℝ) (c : ℝ) (x y : Fin D.m2 → ℝ) :
    D.P2x1to1 (c • x + y) Hh = c • D.P2x1to1 x Hh + D.P2x1to1 y Hh := by
  let T : Stepper := ⟨D, 0, fun _ b => b, 0, false, false⟩
  have h' : Admissible ns ps q types F polar dirichlet T.D := h
  exact C38_linear_first h .one .two .one c x y Hh _ _ _ (cross_211 (T := T) h' _ _) (cross_211 (T := T) h' _ _) (cross_211 (T := T) h' _ _)

/-- **C53** the quadratic form of the assembled Hessian: with `dB = curl (u × B)` it is `|dB|^2 + (u × J) · (M12 M2 dB)`. (The second
variation of the energy has `(u × J) · dB`, that is `M12` alone: the extra factor `M2` is in the code, `mrx/relaxation.py:80-82`.) -/
theorem C53_quadratic_form (B u : Fin D.m2 → ℝ) :
    u ⬝ᵥ D.hessian B *ᵥ u =
      D.deltaB B u ⬝ᵥ D.M2 *ᵥ D.deltaB B u + D.uxJ B u ⬝ᵥ D.M12 *ᵥ (D.M2 *ᵥ D.deltaB B u) := by
  have c1 : columns (D.deltaB B) *ᵥ u = D.deltaB B u := columns_mulVec _ (fun c x y => by
    simp only [DeRham.deltaB, P2x1to1_linear h, mulVec_add, mulVec_smul]) u
  have c2 : columns (D.uxJ B) *ᵥ u = D.uxJ B u := columns_mulVec _ (fun c x y => by
    simp only [DeRham.uxJ, P2x1to1_linear h, mulVec_add, mulVec_smul]) u
  unfold DeRham.hessian
  dsimp only
  have sy : ∀ X : Matrix (Fin D.m2) (Fin D.m2) ℝ, u ⬝ᵥ ((1 / 2 : ℝ) • (X + Xᵀ)) *ᵥ u = u ⬝ᵥ X *ᵥ u := by
    intro X
    rw [smul_mulVec, dotProduct_smul, add_mulVec, dotProduct_add, transpose_dot Xᵀ, transpose_transpose, dotProduct_comm (X *ᵥ u),
      ← two_mul, smul_eq_mul, ← mul_assoc]
    norm_num
  rw [sy, add_mulVec, dotProduct_add, ← c1, ← c2]
  simp only [← mulVec_mulVec]
  rw [transpose_dot (columns (D.deltaB B))ᵀ, transpose_dot (columns (D.uxJ B))ᵀ, transpose_transpose, transpose_transpose]

/-- Case: the standard case. -/
example (polar dirichlet : Bool) := C53_quadratic_form (Case.adm polar dirichlet)

/-- **C53** the same with the auxiliary fields given by their own equations: `H` is the `L²` projection of `B` on 1-forms, `J` its weak
current, `E` and `K` the projections of `u × H` and `u × J`. -/
theorem C53_quadratic_form_weak (B u : Fin D.m2 → ℝ) (H J E K : Fin D.m1 → ℝ) (hH : D.M1 *ᵥ H = D.M12 *ᵥ B)
    (hJ : ∀ A, (D.strongCurl *ᵥ A) ⬝ᵥ D.M2 *ᵥ B = A ⬝ᵥ D.M1 *ᵥ J) (hE : D.M1 *ᵥ E = D.P2x1to1 u H) (hK : D.M1 *ᵥ K = D.P2x1to1 u J) :
    u ⬝ᵥ D.hessian B *ᵥ u = (D.strongCurl *ᵥ E) ⬝ᵥ D.M2 *ᵥ (D.strongCurl *ᵥ E) + K ⬝ᵥ D.M12 *ᵥ (D.M2 *ᵥ (D.strongCurl *ᵥ E)) := by
  obtain ⟨m0, m1, m2, m3⟩ := C31_mass_matrices_definite h
  have inv : ∀ x y, D.M1 *ᵥ x = y → D.M1⁻¹ *ᵥ y = x := by
    rintro x _ rfl
    rw [mulVec_mulVec, m1.inv_mul, one_mulVec]
  have eH : D.P12 *ᵥ B = H := by
    unfold P12 solve
    rw [← mulVec_mulVec]
    exact inv _ _ hH
  have eJ : D.weakCurl *ᵥ B = J := by
    unfold weakCurl solve
    rw [m1.1, ← mulVec_mulVec]
    refine inv _ _ ?_
    have : ∀ A, A ⬝ᵥ (D.M1 *ᵥ J - D.D1ᵀ *ᵥ B) = 0 := by
      intro A
      rw [dotProduct_sub, ← hJ A, sub_eq_zero]
      unfold strongCurl solve
      rw [← sym_dot m2.1, mulVec_mulVec, ← Matrix.mul_assoc, m2.mul_inv, Matrix.one_mul, transpose_dot D.D1ᵀ, transpose_transpose,
        dotProduct_comm]
    exact sub_eq_zero.mp (dotProduct_self_eq_zero.mp (this _))
  rw [C53_quadratic_form h]
  simp only [DeRham.deltaB, DeRham.uxJ, eH, eJ, inv _ _ hE, inv _ _ hK]

/-- The auxiliary fields exist for every `B` and `u`. -/
theorem C53_weak_fields (B u : Fin D.m2 → ℝ) : ∃ H J E K : Fin D.m1 → ℝ, D.M1 *ᵥ H = D.M12 *ᵥ B ∧
    (∀ A, (D.strongCurl *ᵥ A) ⬝ᵥ D.M2 *ᵥ B = A ⬝ᵥ D.M1 *ᵥ J) ∧ D.M1 *ᵥ E = D.P2x1to1 u H ∧ D.M1 *ᵥ K = D.P2x1to1 u J := by
  obtain ⟨m0, m1, m2, m3⟩ := C31_mass_matrices_definite h
  have inv : ∀ y, D.M1 *ᵥ (D.M1⁻¹ *ᵥ y) = y := by
    intro y
    rw [mulVec_mulVec, m1.mul_inv, one_mulVec]
  refine ⟨D.M1⁻¹ *ᵥ (D.M12 *ᵥ B), D.M1⁻¹ *ᵥ (D.D1ᵀ *ᵥ B), D.M1⁻¹ *ᵥ D.P2x1to1 u _, D.M1⁻¹ *ᵥ D.P2x1to1 u _, inv _, fun A => ?_,
    inv _, inv _⟩
  rw [inv]
  unfold strongCurl solve
  rw [← sym_dot m2.1, mulVec_mulVec, ← Matrix.mul_assoc, m2.mul_inv, Matrix.one_mul, transpose_dot D.D1ᵀ, transpose_transpose,
    dotProduct_comm]

/-- Case: the standard case; the fields that `C53_quadratic_form_weak` needs exist. -/
example (polar dirichlet : Bool) (B u) : ∃ e : ℝ, u ⬝ᵥ (Case.D polar dirichlet).hessian B *ᵥ u = e := by
  obtain ⟨H, J, E, K, h1, h2, h3, h4⟩ := C53_weak_fields (Case.adm polar dirichlet) B u
  exact ⟨_, C53_quadratic_form_weak (Case.adm polar dirichlet) B u H J E K h1 h2 h3 h4⟩

end

end Mrx.Props
