import Verif.Proofs.Case
import Verif.Props.Mass

/-!
# C38: cross-product projections
-/

set_option linter.unusedSectionVars false
set_option linter.unusedVariables false

namespace Mrx.Props
open Finset Spec Matrix DeRham

theorem einsumT_eq (A : M33) (v : V3) : einsumT A v = Aᵀ *ᵥ v := by
  funext l; rfl

/-- `(A a) · (A b × A c) = det A · a · (b × c)`. -/
theorem triple_mulVec (A : M33) (a b c : V3) : (A *ᵥ a) ⬝ᵥ crossProduct (A *ᵥ b) (A *ᵥ c) = A.det * (a ⬝ᵥ crossProduct b c) := by
  have := cross_mulVec A b c
  rw [dotProduct_comm, transpose_dot, this, smul_dotProduct, smul_eq_mul, dotProduct_comm]

section
variable {ns ps : Nat × Nat × Nat} {q : Nat} {types : String × String × String} {F : V3 → V3} {polar dirichlet : Bool} {D : DeRham}

theorem fieldAt_one (h : Admissible ns ps q types F polar dirichlet D) (u : Fin D.m1 → ℝ) {j : Nat} (hj : j < D.nq) :
    D.fieldAt .one u j = D.form1 u (D.x j) := h.eval1 u hj

theorem fieldAt_two (h : Admissible ns ps q types F polar dirichlet D) (u : Fin D.m2 → ℝ) {j : Nat} (hj : j < D.nq) :
    D.fieldAt .two u j = D.form2 u (D.x j) := h.eval2 u hj

theorem scale_vec (f : V3) (a : ℝ) : (fun k => f k * a) = a • f := by funext k; simp [mul_comm]

/-- The pointwise identity behind all seven branches. -/
theorem cross_point (h : Admissible ns ps q types F polar dirichlet D) (n m k : Deg) (hs : ¬ (n = .one ∧ m = .one ∧ k = .two))
    (a : Fin (D.mdim n) → ℝ) (w : Fin (D.mdim m) → ℝ) (u : Fin (D.mdim k) → ℝ) {j : Nat} (hj : j < D.nq) :
    D.fieldAt n a j ⬝ᵥ orZero (D.crossWeight n m k j (D.fieldAt m w j) (D.fieldAt k u j)) =
      (D.phys n a (D.x j) ⬝ᵥ crossProduct (D.phys m w (D.x j)) (D.phys k u (D.x j))) * ((jacfwd F (D.x j)).det * D.w j) := by
  obtain ⟨eJ, eG, _, i1, i2, eI, hpos⟩ := h.metricAt hj
  set A := jacfwd F (D.x j) with hA
  set B := A⁻¹ with hB
  have hne := hpos.ne'
  have hdB : Bᵀ.det = A.det⁻¹ := by rw [det_transpose, hB, det_nonsing_inv, Ring.inverse_eq_inv']
  -- DF v = DF^{-T} (G v) and DF^{-T} v = DF (G⁻¹ v)
  have c1 : ∀ v, A *ᵥ v = Bᵀ *ᵥ (D.g.G j *ᵥ v) := fun v => by
    rw [eG, mulVec_mulVec, ← Matrix.mul_assoc, ← transpose_mul, i1, transpose_one, Matrix.one_mul]
  have c2 : ∀ v, Bᵀ *ᵥ v = A *ᵥ (D.g.Ginv j *ᵥ v) := fun v => by
    rw [eI, mulVec_mulVec, ← Matrix.mul_assoc, i1, Matrix.one_mul]
  have tG : (D.g.G j)ᵀ = D.g.G j := by rw [eG, transpose_mul, transpose_transpose]
  have tI : (D.g.Ginv j)ᵀ = D.g.Ginv j := by rw [eI, transpose_mul, transpose_transpose]
  have dG : ∀ x y : V3, x ⬝ᵥ D.g.G j *ᵥ y = (D.g.G j *ᵥ x) ⬝ᵥ y := fun x y => by rw [transpose_dot, tG]
  have dI : ∀ x y : V3, x ⬝ᵥ D.g.Ginv j *ᵥ y = (D.g.Ginv j *ᵥ x) ⬝ᵥ y := fun x y => by rw [transpose_dot, tI]
  have sl : ∀ (a b : V3) (s : ℝ), crossProduct (s • a) b = s • crossProduct a b := fun a b s => by
    rw [LinearMap.map_smul]; rfl
  have sr : ∀ (a b : V3) (s : ℝ), crossProduct a (s • b) = s • crossProduct a b := fun a b s => by
    rw [LinearMap.map_smul]
  cases n <;> cases m <;> cases k
  · -- 1 1 1
    rw [fieldAt_one h a hj, fieldAt_one h w hj, fieldAt_one h u hj]
    simp only [crossWeight, orZero, phys, h.phys1_eq a hj, h.phys1_eq w hj, h.phys1_eq u hj]
    rw [scale_vec, triple_mulVec, hdB, dotProduct_smul, smul_eq_mul]
    field_simp
  · simp at hs
  · -- 1 2 1
    rw [fieldAt_one h a hj, fieldAt_two h w hj, fieldAt_one h u hj]
    simp only [crossWeight, orZero, phys, h.phys1_eq a hj, h.phys2_eq w hj, h.phys1_eq u hj]
    rw [scale_vec, einsumT_eq, tG, eJ, ← hA, c1, sl, dotProduct_smul, dotProduct_smul, triple_mulVec, hdB, smul_eq_mul, smul_eq_mul]
    field_simp
  · -- 1 2 2
    rw [fieldAt_one h a hj, fieldAt_two h w hj, fieldAt_two h u hj]
    simp only [crossWeight, orZero, phys, h.phys1_eq a hj, h.phys2_eq w hj, h.phys2_eq u hj]
    rw [scale_vec, einsumT_eq, tI, ← hA, ← hB, c2, sl, sr, dotProduct_smul, dotProduct_smul, dotProduct_smul, triple_mulVec, dI]
    simp only [smul_eq_mul]
    field_simp
  · -- 2 1 1
    rw [fieldAt_two h a hj, fieldAt_one h w hj, fieldAt_one h u hj]
    simp only [crossWeight, orZero, phys, h.phys2_eq a hj, h.phys1_eq w hj, h.phys1_eq u hj]
    rw [scale_vec, einsumT_eq, tG, eJ, ← hA, c1, dotProduct_smul, smul_dotProduct, triple_mulVec, hdB, dG, smul_eq_mul, smul_eq_mul]
    field_simp
  · -- 2 1 2
    rw [fieldAt_two h a hj, fieldAt_one h w hj, fieldAt_two h u hj]
    simp only [crossWeight, orZero, phys, h.phys2_eq a hj, h.phys1_eq w hj, h.phys2_eq u hj]
    rw [scale_vec, einsumT_eq, tI, ← hA, ← hB, c2, sr, dotProduct_smul, smul_dotProduct, dotProduct_smul, triple_mulVec]
    simp only [smul_eq_mul]
    field_simp
  · -- 2 2 1
    rw [fieldAt_two h a hj, fieldAt_two h w hj, fieldAt_one h u hj]
    simp only [crossWeight, orZero, phys, h.phys2_eq a hj, h.phys2_eq w hj, h.phys1_eq u hj]
    rw [scale_vec, einsumT_eq, tI, ← hA, ← hB, c2, sl, dotProduct_smul, smul_dotProduct, dotProduct_smul, triple_mulVec]
    simp only [smul_eq_mul]
    field_simp
  · -- 2 2 2
    rw [fieldAt_two h a hj, fieldAt_two h w hj, fieldAt_two h u hj]
    simp only [crossWeight, orZero, phys, h.phys2_eq a hj, h.phys2_eq w hj, h.phys2_eq u hj]
    rw [scale_vec, eJ, ← hA, sl, sr, dotProduct_smul, smul_dotProduct, dotProduct_smul, dotProduct_smul, triple_mulVec]
    simp only [smul_eq_mul]
    field_simp

theorem crossProductOf_ok {D : DeRham} {n m k : Deg} (hs : ¬ (n = .one ∧ m = .one ∧ k = .two)) (w : Fin (D.mdim m) → ℝ)
    (u : Fin (D.mdim k) → ℝ) : D.crossProductOf n m k w u = .ok (D.E n *ᵥ integrateAgainst (D.getter n) D.nq 3
      (fun j => orZero (D.crossWeight n m k j (D.fieldAt m w j) (D.fieldAt k u j))) (D.ldim n)) := by
  cases n <;> cases m <;> cases k <;> first | rfl | exact absurd ⟨rfl, rfl, rfl⟩ hs

theorem crossProductOf_err {D : DeRham} {n m k : Deg} (hs : n = .one ∧ m = .one ∧ k = .two) (w : Fin (D.mdim m) → ℝ)
    (u : Fin (D.mdim k) → ℝ) : ∃ e, D.crossProductOf n m k w u = .error e := by
  obtain ⟨rfl, rfl, rfl⟩ := hs
  exact ⟨_, rfl⟩

/-- **C38** For every supported combination of degrees the result `r` of the cross-product projection is the load vector of the
physical cross product: paired with any coefficient vector `a` it is the L2 product of the physical field of `a` with `w × u`. -/
theorem C38_cross_product_integrals (h : Admissible ns ps q types F polar dirichlet D) (n m k : Deg)
    (hs : ¬ (n = .one ∧ m = .one ∧ k = .two)) (w : Fin (D.mdim m) → ℝ) (u : Fin (D.mdim k) → ℝ) :
    ∃ r, D.crossProductOf n m k w u = .ok r ∧ ∀ a, a ⬝ᵥ r =
      l2Product (D.phys n a) (fun y => crossProduct (D.phys m w y) (D.phys k u y)) D.S.Q F := by
  rw [crossProductOf_ok hs]
  refine ⟨_, rfl, fun a => ?_⟩
  rw [Admissible.integrate_dot, h.l2_eq]
  refine Finset.sum_congr rfl fun j hj => ?_
  exact cross_point h n m k hs a w u (mem_range.mp hj)

/-- Case: the standard case, `v ↦ (w × u, v)` for a 2-form `w` and 1-forms `u`, `v`. -/
example (polar dirichlet : Bool) := C38_cross_product_integrals (Case.adm polar dirichlet) .one .two .one (by simp)

/-- The load vector of a field is determined by its pairings. -/
theorem cross_eq_of (h : Admissible ns ps q types F polar dirichlet D) {n m k : Deg} {w u r}
    (hr : D.crossProductOf n m k w u = .ok r) : ¬ (n = .one ∧ m = .one ∧ k = .two) ∧ ∀ a, a ⬝ᵥ r =
      l2Product (D.phys n a) (fun y => crossProduct (D.phys m w y) (D.phys k u y)) D.S.Q F := by
  have hs : ¬ (n = .one ∧ m = .one ∧ k = .two) := by
    intro hs; obtain ⟨e, he⟩ := crossProductOf_err hs w u; rw [he] at hr; cases hr
  obtain ⟨r', e, hr'⟩ := C38_cross_product_integrals h n m k hs w u
  rw [hr] at e
  obtain rfl := Except.ok.inj e
  exact ⟨hs, hr'⟩

/-- **C38** swapping the arguments (of any degrees) flips the sign, whenever both orders are supported. -/
theorem C38_antisymmetric (h : Admissible ns ps q types F polar dirichlet D) (n m k : Deg) (w : Fin (D.mdim m) → ℝ)
    (u : Fin (D.mdim k) → ℝ) (r r' : Fin (D.mdim n) → ℝ) (hr : D.crossProductOf n m k w u = .ok r)
    (hr' : D.crossProductOf n k m u w = .ok r') : r' = -r := by
  refine dot_ext fun a => ?_
  rw [(cross_eq_of h hr').2 a, dotProduct_neg, (cross_eq_of h hr).2 a, h.l2_eq, h.l2_eq, ← Finset.sum_neg_distrib]
  refine Finset.sum_congr rfl fun j _ => ?_
  rw [← cross_anticomm (D.phys m w _), dotProduct_neg]
  ring

/-- Case: the standard case, 2-forms. -/
example (polar dirichlet : Bool) (w u) := C38_antisymmetric (Case.adm polar dirichlet) .two .two .two w u _ _
  (crossProductOf_ok (by simp) _ _) (crossProductOf_ok (by simp) _ _)

/-- **C38** the result is orthogonal to both arguments: paired with the argument of the test degree it vanishes. -/
theorem C38_orthogonal_to_arguments (h : Admissible ns ps q types F polar dirichlet D) (n k : Deg) (w : Fin (D.mdim n) → ℝ)
    (u : Fin (D.mdim k) → ℝ) :
    (∀ r, D.crossProductOf n n k w u = .ok r → w ⬝ᵥ r = 0) ∧ (∀ r, D.crossProductOf n k n u w = .ok r → w ⬝ᵥ r = 0) := by
  constructor
  · intro r hr
    rw [(cross_eq_of h hr).2 w, h.l2_eq]
    exact Finset.sum_eq_zero fun j _ => by rw [dot_self_cross, zero_mul]
  · intro r hr
    rw [(cross_eq_of h hr).2 w, h.l2_eq]
    exact Finset.sum_eq_zero fun j _ => by rw [dot_cross_self, zero_mul]

/-- Case: the standard case, and a product that is defined. -/
example (polar dirichlet : Bool) (w u) := (C38_orthogonal_to_arguments (Case.adm polar dirichlet) .two .one w u).1 _ (crossProductOf_ok (by simp) _ _)

/-- **C38** the triple product may be permuted cyclically between the test function and the arguments. -/
theorem C38_cyclic (h : Admissible ns ps q types F polar dirichlet D) (n m k : Deg) (a : Fin (D.mdim n) → ℝ) (w : Fin (D.mdim m) → ℝ)
    (u : Fin (D.mdim k) → ℝ) (r : Fin (D.mdim n) → ℝ) (r' : Fin (D.mdim m) → ℝ)
    (hr : D.crossProductOf n m k w u = .ok r) (hr' : D.crossProductOf m k n u a = .ok r') : a ⬝ᵥ r = w ⬝ᵥ r' := by
  rw [(cross_eq_of h hr).2 a, (cross_eq_of h hr').2 w, h.l2_eq, h.l2_eq]
  refine Finset.sum_congr rfl fun j _ => ?_
  rw [triple_product_permutation]

/-- Case: the standard case, two 2-forms and a 1-form. -/
example (polar dirichlet : Bool) (a w u) := C38_cyclic (Case.adm polar dirichlet) .two .two .one a w u _ _
  (crossProductOf_ok (by simp) _ _) (crossProductOf_ok (by simp) _ _)

theorem form1_lin (s : ℝ) (w w' : Fin D.m1 → ℝ) (y : V3) : D.form1 (s • w + w') y = s • D.form1 w y + D.form1 w' y := by
  funext c
  simp only [form1, discreteFunction, add_vecMul, smul_vecMul, add_dotProduct, smul_dotProduct, Pi.add_apply, Pi.smul_apply]

theorem form2_lin (s : ℝ) (w w' : Fin D.m2 → ℝ) (y : V3) : D.form2 (s • w + w') y = s • D.form2 w y + D.form2 w' y := by
  funext c
  simp only [form2, discreteFunction, add_vecMul, smul_vecMul, add_dotProduct, smul_dotProduct, Pi.add_apply, Pi.smul_apply]

theorem phys1_lin (h : Admissible ns ps q types F polar dirichlet D) (s : ℝ) (w w' : Fin D.m1 → ℝ) {j : Nat} (hj : j < D.nq) :
    D.phys1 (s • w + w') (D.x j) = s • D.phys1 w (D.x j) + D.phys1 w' (D.x j) := by
  rw [h.phys1_eq (s • w + w') hj, h.phys1_eq w hj, h.phys1_eq w' hj, form1_lin, mulVec_add, mulVec_smul]

theorem phys2_lin (h : Admissible ns ps q types F polar dirichlet D) (s : ℝ) (w w' : Fin D.m2 → ℝ) {j : Nat} (hj : j < D.nq) :
    D.phys2 (s • w + w') (D.x j) = s • D.phys2 w (D.x j) + D.phys2 w' (D.x j) := by
  rw [h.phys2_eq (s • w + w') hj, h.phys2_eq w hj, h.phys2_eq w' hj, form2_lin, mulVec_add, mulVec_smul, smul_add, smul_comm]

theorem phys_lin (h : Admissible ns ps q types F polar dirichlet D) (m : Deg) (s : ℝ) (w w' : Fin (D.mdim m) → ℝ) {j : Nat}
    (hj : j < D.nq) : D.phys m (s • w + w') (D.x j) = s • D.phys m w (D.x j) + D.phys m w' (D.x j) := by
  cases m
  · exact phys1_lin h s w w' hj
  · exact phys2_lin h s w w' hj

/-- **C38** linearity in the first argument. -/
theorem C38_linear_first (h : Admissible ns ps q types F polar dirichlet D) (n m k : Deg) (s : ℝ) (w w' : Fin (D.mdim m) → ℝ)
    (u : Fin (D.mdim k) → ℝ) (r r' r'' : Fin (D.mdim n) → ℝ)
    (hr : D.crossProductOf n m k w u = .ok r) (hr' : D.crossProductOf n m k w' u = .ok r')
    (hr'' : D.crossProductOf n m k (s • w + w') u = .ok r'') : r'' = s • r + r' := by
  obtain ⟨hs, e⟩ := cross_eq_of h hr
  obtain ⟨_, e'⟩ := cross_eq_of h hr'
  refine dot_ext fun a => ?_
  rw [(cross_eq_of h hr'').2 a, dotProduct_add, dotProduct_smul, e a, e' a, h.l2_eq, h.l2_eq, h.l2_eq, smul_eq_mul, Finset.mul_sum,
    ← Finset.sum_add_distrib]
  refine Finset.sum_congr rfl fun j hj => ?_
  have hj := mem_range.mp hj
  rw [phys_lin h m s w w' hj, LinearMap.map_add₂, LinearMap.map_smul₂, dotProduct_add, dotProduct_smul, smul_eq_mul]
  ring

/-- Case: the standard case. -/
example (polar dirichlet : Bool) (s : ℝ) (w w' u) := C38_linear_first (Case.adm polar dirichlet) .two .one .one s w w' u _ _ _
  (crossProductOf_ok (by simp) _ _) (crossProductOf_ok (by simp) _ _) (crossProductOf_ok (by simp) _ _)

/-- **C38** linearity in the second argument. -/
theorem C38_linear_second (h : Admissible ns ps q types F polar dirichlet D) (n m k : Deg) (s : ℝ) (w : Fin (D.mdim m) → ℝ)
    (u u' : Fin (D.mdim k) → ℝ) (r r' r'' : Fin (D.mdim n) → ℝ)
    (hr : D.crossProductOf n m k w u = .ok r) (hr' : D.crossProductOf n m k w u' = .ok r')
    (hr'' : D.crossProductOf n m k w (s • u + u') = .ok r'') : r'' = s • r + r' := by
  obtain ⟨hs, e⟩ := cross_eq_of h hr
  obtain ⟨_, e'⟩ := cross_eq_of h hr'
  refine dot_ext fun a => ?_
  rw [(cross_eq_of h hr'').2 a, dotProduct_add, dotProduct_smul, e a, e' a, h.l2_eq, h.l2_eq, h.l2_eq, smul_eq_mul, Finset.mul_sum,
    ← Finset.sum_add_distrib]
  refine Finset.sum_congr rfl fun j hj => ?_
  have hj := mem_range.mp hj
  rw [phys_lin h k s u u' hj, LinearMap.map_add, LinearMap.map_smul, dotProduct_add, dotProduct_smul, smul_eq_mul]
  ring

/-- Case: the standard case. -/
example (polar dirichlet : Bool) (s : ℝ) (w u u') := C38_linear_second (Case.adm polar dirichlet) .two .one .one s w u u' _ _ _
  (crossProductOf_ok (by simp) _ _) (crossProductOf_ok (by simp) _ _) (crossProductOf_ok (by simp) _ _)

end

/-- **C38** the constructor accepts exactly degrees 1 and 2. -/
theorem C38_degrees_checked (n m k : Int) :
    (∃ t, crossProductInit n m k = .ok t) ↔ (n = 1 ∨ n = 2) ∧ (m = 1 ∨ m = 2) ∧ (k = 1 ∨ k = 2) := by
  unfold crossProductInit
  have key : ∀ (a : Int) (s : String), (∃ d, Deg.ofInt? a s = .ok d) ↔ (a = 1 ∨ a = 2) := by
    intro a s
    unfold Deg.ofInt?
    split_ifs with h1 h2
    · simp [h1]
    · simp [h2]
    · simp [h1, h2]
  have e : ∀ (a : Int) (s : String), (∃ e, Deg.ofInt? a s = .error e) → ¬ (a = 1 ∨ a = 2) := by
    intro a s ⟨e, he⟩ h
    obtain ⟨d, hd⟩ := (key a s).mpr h
    rw [hd] at he; cases he
  constructor
  · rintro ⟨t, ht⟩
    split at ht
    · cases ht
    · rename_i a ha
      split at ht
      · cases ht
      · rename_i b hb
        split at ht
        · cases ht
        · rename_i c hc
          exact ⟨(key n _).mp ⟨a, ha⟩, (key m _).mp ⟨b, hb⟩, (key k _).mp ⟨c, hc⟩⟩
  · rintro ⟨h1, h2, h3⟩
    obtain ⟨a, ha⟩ := (key n "n").mpr h1
    obtain ⟨b, hb⟩ := (key m "m").mpr h2
    obtain ⟨c, hc⟩ := (key k "k").mpr h3
    exact ⟨(a, b, c), by rw [ha]; simp only [hb, hc]⟩

/-- **C38** of the eight combinations exactly `(1, 1, 2)` raises when called (although the documentation announces all eight). -/
theorem C38_unsupported_raises (D : DeRham) (n m k : Deg) (w : Fin (D.mdim m) → ℝ) (u : Fin (D.mdim k) → ℝ) :
    (∃ e, D.crossProductOf n m k w u = .error e) ↔ n = .one ∧ m = .one ∧ k = .two := by
  refine ⟨fun ⟨e, he⟩ => ?_, fun hs => crossProductOf_err hs w u⟩
  by_contra hs
  rw [crossProductOf_ok hs] at he
  cases he

/-- non-vacuity. -/
example : ∃ D, Admissible (5, 6, 4) (3, 2, 1) 4 ("clamped", "periodic", "periodic") (fun y => y) true true D ∧
    ∃ r, D.crossProductOf .one .two .one 0 0 = .ok r := by
  obtain ⟨D, h⟩ := Admissible.example true true
  exact ⟨D, h, _, crossProductOf_ok (by simp) _ _⟩

end Mrx.Props
