import Verif.Proofs.Getters

/-!
# C16 - C19: degrees of freedom and values of discrete differential forms
-/

set_option linter.unusedSectionVars false

namespace Mrx.Props
open Finset Mrx

/-- **C16** ravel then unravel: for every degree, every component `c` of the stored shape `(a,b,e)` and
every `(i,j,l)` in that shape, the flat index is valid and decodes to `(c,i,j,l)`. -/
theorem C16_unravel_ravel (d : Dims) (hk : Dims.validDegree d.k) (c i j l a b e : Nat)
    (hs : d.shape[c]? = some (a, b, e)) (hi : i < a) (hj : j < b) (hl : l < e) :
    d.ravelIndex c i j l < d.n ∧ d.unravelIndex (d.ravelIndex c i j l) = (c, i, j, l) := by
  have h : d.InRange c i j l := by
    have : d.cshape c = (a, b, e) := by
      unfold Dims.cshape; rw [List.getD_eq_getElem?_getD, hs]; rfl
    unfold Dims.InRange; rw [this]; exact ⟨hi, hj, hl⟩
  exact ⟨d.ravelIndex_lt hk h, d.unravelIndex_ravelIndex hk h⟩

/-- Case: 1-forms on 4 × 5 × 3 splines (clamped, periodic, periodic), second component. -/
example := C16_unravel_ravel ⟨1, 4, 5, 3, 3, 5, 3⟩ (by decide) 1 3 4 2 4 5 3 (by decide) (by norm_num) (by norm_num) (by norm_num)

/-- **C16** unravel then ravel: every flat index below `n` decodes to an index tuple inside the shape of
its component, and encodes back to itself. -/
theorem C16_ravel_unravel (d : Dims) (hk : Dims.validDegree d.k) (idx : Nat) (h : idx < d.n) :
    ∃ c i j l a b e, d.unravelIndex idx = (c, i, j, l) ∧ d.shape[c]? = some (a, b, e) ∧
      i < a ∧ j < b ∧ l < e ∧ d.ravelIndex c i j l = idx := by
  obtain ⟨h1, h2⟩ := d.unravelIndex_inRange hk h
  refine ⟨(d.unravelIndex idx).1, (d.unravelIndex idx).2.1, (d.unravelIndex idx).2.2.1,
    (d.unravelIndex idx).2.2.2, _, _, _, rfl, ?_, h1.1, h1.2.1, h1.2.2, h2⟩
  have := h1.comp_lt
  generalize (d.unravelIndex idx).1 = c at this ⊢
  simp [Dims.cshape, List.getD_eq_getElem?_getD, List.getElem?_eq_getElem this]

/-- Case: the same space, index 164 (the last). -/
example := C16_ravel_unravel ⟨1, 4, 5, 3, 3, 5, 3⟩ (by decide) 164 (by decide)

/-- **C16** every flat index is the image of exactly one index tuple. -/
theorem C16_covered_once (d : Dims) (hk : Dims.validDegree d.k) (idx : Nat) (h : idx < d.n) :
    ∃! t : Nat × Nat × Nat × Nat, (∃ a b e, d.shape[t.1]? = some (a, b, e) ∧ t.2.1 < a ∧ t.2.2.1 < b ∧
      t.2.2.2 < e) ∧ d.ravelIndex t.1 t.2.1 t.2.2.1 t.2.2.2 = idx := by
  obtain ⟨c, i, j, l, a, b, e, h1, h2, h3, h4, h5, h6⟩ := C16_ravel_unravel d hk idx h
  refine ⟨(c, i, j, l), ⟨⟨a, b, e, h2, h3, h4, h5⟩, h6⟩, ?_⟩
  rintro ⟨c', i', j', l'⟩ ⟨⟨a', b', e', g2, g3, g4, g5⟩, g6⟩
  have := (C16_unravel_ravel d hk c' i' j' l' a' b' e' g2 g3 g4 g5).2
  simp only [] at g6
  rw [g6, h1] at this
  exact this.symm

example : Dims.validDegree (-1) ∧ (Dims.mk 1 4 5 3 3 5 3).shape[1]? = some (4, 5, 3) := by decide
example : (Dims.mk 1 4 5 3 3 5 3).n = 165 ∧
    (Dims.mk 1 4 5 3 3 5 3).unravelIndex 100 = (1, 3, 3, 1) := by decide

section Generic
variable {K : Type*} [Field K] [LinearOrder K]

/-- **C17** Sizes of the four spaces built with the same arguments: the documented products, and the
alternating sum is the product of the differences `n - d` (`d = n - 1` for clamped, `n` otherwise). -/
theorem C17_euler_characteristic (ns ps : Nat × Nat × Nat) (types : String × String × String)
    (f0 f1 f2 f3 : Form K)
    (h0 : Form.mk? 0 ns ps types = .ok f0) (h1 : Form.mk? 1 ns ps types = .ok f1)
    (h2 : Form.mk? 2 ns ps types = .ok f2) (h3 : Form.mk? 3 ns ps types = .ok f3)
    (dr dt dz : Nat) (hr : dr = if types.1 = "clamped" then ns.1 - 1 else ns.1)
    (ht : dt = if types.2.1 = "clamped" then ns.2.1 - 1 else ns.2.1)
    (hz : dz = if types.2.2 = "clamped" then ns.2.2 - 1 else ns.2.2) :
    f0.dims.n = ns.1 * ns.2.1 * ns.2.2 ∧
    f1.dims.n = dr * ns.2.1 * ns.2.2 + ns.1 * dt * ns.2.2 + ns.1 * ns.2.1 * dz ∧
    f2.dims.n = ns.1 * dt * dz + dr * ns.2.1 * dz + dr * dt * ns.2.2 ∧
    f3.dims.n = dr * dt * dz ∧
    (f0.dims.n : ℤ) - f1.dims.n + f2.dims.n - f3.dims.n
      = ((ns.1 : ℤ) - dr) * ((ns.2.1 : ℤ) - dt) * ((ns.2.2 : ℤ) - dz) := by
  have e0 := (Form.mk?_inv h0).2.1
  have e1 := (Form.mk?_inv h1).2.1
  have e2 := (Form.mk?_inv h2).2.1
  have e3 := (Form.mk?_inv h3).2.1
  rw [show Form.dsize ns.1 types.1 = dr from hr.symm,
    show Form.dsize ns.2.1 types.2.1 = dt from ht.symm,
    show Form.dsize ns.2.2 types.2.2 = dz from hz.symm] at e0 e1 e2 e3
  have a0 : f0.dims.n = ns.1 * ns.2.1 * ns.2.2 := by rw [e0]; simp [Dims.n, Dims.n1, Dims.n2, Dims.n3]
  have a1 : f1.dims.n = dr * ns.2.1 * ns.2.2 + ns.1 * dt * ns.2.2 + ns.1 * ns.2.1 * dz := by
    rw [e1]; simp [Dims.n, Dims.n1, Dims.n2, Dims.n3]
  have a2 : f2.dims.n = ns.1 * dt * dz + dr * ns.2.1 * dz + dr * dt * ns.2.2 := by
    rw [e2]; simp [Dims.n, Dims.n1, Dims.n2, Dims.n3]
  have a3 : f3.dims.n = dr * dt * dz := by rw [e3]; simp [Dims.n, Dims.n1, Dims.n2, Dims.n3]
  refine ⟨a0, a1, a2, a3, ?_⟩
  rw [a0, a1, a2, a3]; push_cast; ring

/-- Case: 4 × 3 × 2 splines, clamped in the first and third direction: the alternating sum is 0 · … = 1 · 0 · 1. -/
example := C17_euler_characteristic (K := ℚ) (4, 3, 2) (2, 1, 1) ("clamped", "periodic", "clamped") _ _ _ _ rfl rfl rfl rfl 3 3 1
  (by decide) (by decide) (by decide)

/-- **C17** The alternating sum vanishes as soon as one direction is not clamped. -/
theorem C17_euler_zero_if_periodic (ns ps : Nat × Nat × Nat) (types : String × String × String)
    (f0 f1 f2 f3 : Form K)
    (h0 : Form.mk? 0 ns ps types = .ok f0) (h1 : Form.mk? 1 ns ps types = .ok f1)
    (h2 : Form.mk? 2 ns ps types = .ok f2) (h3 : Form.mk? 3 ns ps types = .ok f3)
    (h : types.1 ≠ "clamped" ∨ types.2.1 ≠ "clamped" ∨ types.2.2 ≠ "clamped") :
    (f0.dims.n : ℤ) - f1.dims.n + f2.dims.n - f3.dims.n = 0 := by
  rw [(C17_euler_characteristic ns ps types f0 f1 f2 f3 h0 h1 h2 h3 _ _ _ rfl rfl rfl).2.2.2.2]
  rcases h with h | h | h <;> simp [h]

/-- Case: the same space. -/
example := C17_euler_zero_if_periodic (K := ℚ) (4, 3, 2) (2, 1, 1) ("clamped", "periodic", "clamped") _ _ _ _ rfl rfl rfl rfl
  (Or.inr (Or.inl (by decide)))

/-- **C17** Only degrees `0, 1, 2, 3, -1` are accepted. -/
theorem C17_bad_degree_rejected (k : Int) (ns ps : Nat × Nat × Nat) (types : String × String × String)
    (f : Form K) (h : Form.mk? k ns ps types = .ok f) : k ∈ [0, 1, 2, 3, -1] := by
  have := (Form.mk?_inv h).1
  simpa [Dims.validDegree] using this

/-- Case: the vector space `k = -1`. -/
example := C17_bad_degree_rejected (K := ℚ) (-1) (4, 3, 2) (2, 1, 1) ("clamped", "periodic", "clamped") _ rfl

/-- **C18** A basis function has one active component, whose value is the product of the prescribed 1-D
factors (specification in `Verif/Spec/Forms.lean`). -/
theorem C18_single_component (k : Int) (ns ps : Nat × Nat × Nat) (types : String × String × String)
    (f : Form K) (hf : Form.mk? k ns ps types = .ok f) (idx : Nat) (h : idx < f.dims.n)
    (x : K × K × K) (comp : Nat) (hc : comp < f.dims.shape.length) :
    ∃ c i j l, f.dims.unravelIndex idx = (c, i, j, l) ∧
      f.evaluate x idx comp = if comp = c then Spec.basisValue f c x i j l else 0 := by
  have hw := Form.mk?_wf hf
  obtain ⟨h1, h2⟩ := f.dims.unravelIndex_inRange hw.k h
  refine ⟨(f.dims.unravelIndex idx).1, (f.dims.unravelIndex idx).2.1, (f.dims.unravelIndex idx).2.2.1,
    (f.dims.unravelIndex idx).2.2.2, rfl, ?_⟩
  have := f.evaluate_ravel hw h1 x comp hc
  rw [h2] at this
  exact this

/-- Case: the last basis 2-form. -/
example := C18_single_component (K := ℚ) 2 (4, 3, 1) (2, 1, 0) ("clamped", "periodic", "constant") _ rfl 29 (by decide +kernel)
  (1 / 3, 1 / 4, 0) 1 (by decide +kernel)

/-- **C18** The number of components is 1 for 0- and 3-forms and 3 otherwise. -/
theorem C18_component_count (k : Int) (ns ps : Nat × Nat × Nat) (types : String × String × String)
    (f : Form K) (hf : Form.mk? k ns ps types = .ok f) :
    f.dims.shape.length = if k = 0 ∨ k = 3 then 1 else 3 := by
  obtain ⟨hk, hd, _⟩ := Form.mk?_inv hf
  rw [hd]
  rcases hk with h | h | h | h | h <;> simp [Dims.shape, h]

/-- Case: 2-forms. -/
example := C18_component_count (K := ℚ) 2 (4, 3, 1) (2, 1, 0) ("clamped", "periodic", "constant") _ rfl

/-- **C18** A discrete function is linear in its coefficients. -/
theorem C18_discrete_function_linear {m : Nat} (Λ : Form K) (E : Matrix (Fin m) (Fin Λ.dims.n) K)
    (u v : Fin m → K) (a b : K) (x : K × K × K) (comp : Nat) :
    discreteFunction Λ (a • u + b • v) E x comp
      = a * discreteFunction Λ u E x comp + b * discreteFunction Λ v E x comp := by
  unfold discreteFunction
  rw [Matrix.add_vecMul, Matrix.smul_vecMul, Matrix.smul_vecMul, add_dotProduct, smul_dotProduct,
    smul_dotProduct, smul_eq_mul, smul_eq_mul]

/-- **C18** A discrete function is the combination of the basis functions with the coefficients
`Eᵀ dof`; without extraction (`E = 1`), unit coefficients give back single basis functions. -/
theorem C18_discrete_function_value {m : Nat} (Λ : Form K) (E : Matrix (Fin m) (Fin Λ.dims.n) K)
    (u : Fin m → K) (x : K × K × K) (comp : Nat) :
    discreteFunction Λ u E x comp = ∑ i : Fin Λ.dims.n, (∑ a, u a * E a i) * Λ.evaluate x i comp := rfl

theorem C18_discrete_function_unit (Λ : Form K) (i : Fin Λ.dims.n) (x : K × K × K) (comp : Nat) :
    discreteFunction Λ (Pi.single i 1) 1 x comp = Λ.evaluate x i comp := by
  unfold discreteFunction
  rw [Matrix.vecMul_one, single_dotProduct, one_mul]

end Generic

section Ordered
variable {K : Type*} [Field K] [LinearOrder K] [IsStrictOrderedRing K]

/-- **C19** The tabulated getters agree with direct evaluation of the form at the quadrature point, for
every sequence the constructor builds, every basis function, quadrature point and component. -/
theorem C19_getters_agree (ns ps : Nat × Nat × Nat) (q : Nat) (types : String × String × String)
    (S : Seq K) (hS : Seq.mk? ns ps q types = .ok S) (j : Nat) (x : K × K × K)
    (hx : S.Q.x[j]? = some x) :
    (∀ i < S.L0.dims.n, S.getLambda0 i j 0 = S.L0.evaluate x i 0) ∧
    (∀ i < S.L1.dims.n, ∀ k < 3, S.getLambda1 i j k = S.L1.evaluate x i k) ∧
    (∀ i < S.L2.dims.n, ∀ k < 3, S.getLambda2 i j k = S.L2.evaluate x i k) ∧
    (∀ i < S.L3.dims.n, S.getLambda3 i j 0 = S.L3.evaluate x i 0) := by
  have hw := Seq.mk?_wf hS
  have ht : S.IsTensor := Seq.rule_isTensor (Seq.mk?_inv hS).2.2.2.2
  have hlen : S.Q.x.length = S.nq := by
    have := (C14_tensor_rule_order (S.Q.xx, S.Q.xx) (S.Q.xy, S.Q.xy) (S.Q.xz, S.Q.xz) rfl rfl rfl).1
    rw [show S.Q.x = _ from ht]; exact this
  have hj : j < S.nq := by
    rw [← hlen]; exact (List.getElem?_eq_some_iff.mp hx).1
  have hp : S.point j = x := by unfold Seq.point; rw [List.getD_eq_getElem?_getD, hx]; rfl
  refine ⟨fun i hi => ?_, fun i hi k hk => ?_, fun i hi k hk => ?_, fun i hi => ?_⟩
  · obtain ⟨h1, h2⟩ := S.L0.dims.unravelIndex_inRange hw.f0.k hi
    have hl : S.L0.dims.shape.length = 1 := by simp [Dims.shape, hw.k0]
    have hc : (S.L0.dims.unravelIndex i).1 = 0 := by have := h1.comp_lt; omega
    have g := Seq.getLambda0_ravel hw ht hj h1 0
    have e := S.L0.evaluate_ravel hw.f0 h1 x 0 (by omega)
    rw [h2] at g e
    rw [g, e, hc, if_pos rfl, hp]
  · obtain ⟨h1, h2⟩ := S.L1.dims.unravelIndex_inRange hw.f1.k hi
    have hl : S.L1.dims.shape.length = 3 := by rw [hw.e1]; simp [Dims.shape]
    have g := Seq.getLambda1_ravel hw ht hj h1 k
    have e := S.L1.evaluate_ravel hw.f1 h1 x k (by omega)
    rw [h2] at g e
    rw [g, e, hp]
  · obtain ⟨h1, h2⟩ := S.L2.dims.unravelIndex_inRange hw.f2.k hi
    have hl : S.L2.dims.shape.length = 3 := by rw [hw.e2]; simp [Dims.shape]
    have g := Seq.getLambda2_ravel hw ht hj h1 k
    have e := S.L2.evaluate_ravel hw.f2 h1 x k (by omega)
    rw [h2] at g e
    rw [g, e, hp]
  · obtain ⟨h1, h2⟩ := S.L3.dims.unravelIndex_inRange hw.f3.k hi
    have hl : S.L3.dims.shape.length = 1 := by rw [hw.e3]; simp [Dims.shape]
    have hc : (S.L3.dims.unravelIndex i).1 = 0 := by have := h1.comp_lt; omega
    have g := Seq.getLambda3_ravel hw ht hj h1 0
    have e := S.L3.evaluate_ravel hw.f3 h1 x 0 (by omega)
    rw [h2] at g e
    rw [g, e, hc, if_pos rfl, hp]

end Ordered

/-! ## Non-vacuity: a sequence with all three basis types -/

example : ∃ S : Seq ℚ, Seq.mk? (4, 3, 1) (2, 1, 0) 2 ("clamped", "periodic", "constant") = .ok S ∧
    S.L0.dims.n = 12 ∧ S.L1.dims.n = 33 ∧ S.L2.dims.n = 30 ∧ S.L3.dims.n = 9 ∧
    ∃ x, S.Q.x[5]? = some x := by
  refine ⟨_, rfl, by decide +kernel, by decide +kernel, by decide +kernel, by decide +kernel, ?_⟩
  exact ⟨_, rfl⟩

end Mrx.Props
