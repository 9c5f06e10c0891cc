import Verif.Proofs.Boundary
import Verif.Props.Splines2

/-! # C26, C27: boundary operators -/

set_option linter.unusedSectionVars false

namespace Mrx.Props
open Finset Mrx Spec Matrix

/-- **C26** The matrix is a selection of degrees of freedom: row `r` is the unit vector of `sel r`, different
rows select different degrees of freedom, and the selected ones are exactly those the condition keeps. -/
theorem C26_rows_select_kept_dofs (B : BoundaryOp) (hk : B.Λ.k = 0 ∨ B.Λ.k = 1 ∨ B.Λ.k = 2 ∨ B.Λ.k = 3) :
    ∃ sel : Fin B.rowDims.n → Fin B.Λ.n, Function.Injective sel ∧
      (∀ r c, B.matrix r c = if c = sel r then 1 else 0) ∧
      (∀ c, (∃ r, sel r = c) ↔ Kept B.Λ B.types (B.Λ.unravelIndex c)) := by
  have hv : Dims.validDegree B.Λ.k := by unfold Dims.validDegree; omega
  have hv' : Dims.validDegree B.rowDims.k := hv
  let u := fun r : Fin B.rowDims.n => B.rowDims.unravelIndex r
  have hu := fun r : Fin B.rowDims.n => B.rowDims.unravelIndex_inRange hv' r.2
  have hw := fun r : Fin B.Λ.n => B.Λ.unravelIndex_inRange hv r.2
  have hin := fun r : Fin B.rowDims.n => B.sel_inRange (hu r).1 hk
  let sel : Fin B.rowDims.n → Fin B.Λ.n := fun r => ⟨_, Dims.ravelIndex_lt _ hv (hin r)⟩
  have hmat : ∀ r c, B.matrix r c = if c = sel r then 1 else 0 := by
    intro r c
    unfold BoundaryOp.matrix
    have he := B.element_eq hk (hu r).1 (hw c).1
    rw [(hu r).2, (hw c).2] at he
    rw [he]
    have : (c = sel r) ↔ ((B.rowDims.unravelIndex r).1 = (B.Λ.unravelIndex c).1 ∧
        (B.rowDims.unravelIndex r).2.1 + B.sh (B.rowDims.unravelIndex r).1 0 = (B.Λ.unravelIndex c).2.1 ∧
        (B.rowDims.unravelIndex r).2.2.1 + B.sh (B.rowDims.unravelIndex r).1 1 = (B.Λ.unravelIndex c).2.2.1 ∧
        (B.rowDims.unravelIndex r).2.2.2 + B.sh (B.rowDims.unravelIndex r).1 2
          = (B.Λ.unravelIndex c).2.2.2) := by
      constructor
      · intro h
        have h1 := congrArg (fun x : Fin B.Λ.n => B.Λ.unravelIndex x) h
        simp only [sel] at h1
        rw [Dims.unravelIndex_ravelIndex _ hv (hin r)] at h1
        rw [h1]
        exact ⟨rfl, rfl, rfl, rfl⟩
      · rintro ⟨a, b, c', d⟩
        apply Fin.ext
        rw [← (hw c).2]
        simp only [sel, ← a, ← b, ← c', ← d]
    by_cases h : c = sel r
    · rw [if_pos h, if_pos (this.mp h)]; simp
    · rw [if_neg h, if_neg (fun hh => h (this.mpr hh))]; simp
  refine ⟨sel, ?_, hmat, ?_⟩
  · intro r r' h
    have h1 := congrArg (fun x : Fin B.Λ.n => B.Λ.unravelIndex x) h
    simp only [sel] at h1
    rw [Dims.unravelIndex_ravelIndex _ hv (hin r), Dims.unravelIndex_ravelIndex _ hv (hin r')] at h1
    simp only [Prod.mk.injEq] at h1
    obtain ⟨a, b, c, d⟩ := h1
    rw [a] at b c d
    apply Fin.ext
    rw [← (hu r).2, ← (hu r').2, a, Nat.add_right_cancel b, Nat.add_right_cancel c, Nat.add_right_cancel d]
  · intro c
    rw [show B.Λ.unravelIndex c = ((B.Λ.unravelIndex c).1, (B.Λ.unravelIndex c).2.1,
      (B.Λ.unravelIndex c).2.2.1, (B.Λ.unravelIndex c).2.2.2) from rfl, B.kept_iff hk (hw c).1]
    constructor
    · rintro ⟨r, rfl⟩
      refine ⟨_, _, _, (?_ : B.rowDims.InRange _ (B.rowDims.unravelIndex r).2.1
        (B.rowDims.unravelIndex r).2.2.1 (B.rowDims.unravelIndex r).2.2.2), ?_⟩ <;> simp only [sel]
      · rw [Dims.unravelIndex_ravelIndex _ hv (hin r)]; exact (hu r).1
      · rw [Dims.unravelIndex_ravelIndex _ hv (hin r)]; exact ⟨rfl, rfl, rfl⟩
    · rintro ⟨i, j, l, hr, h1, h2, h3⟩
      refine ⟨⟨_, Dims.ravelIndex_lt _ hv' hr⟩, ?_⟩
      apply Fin.ext
      simp only [sel]
      rw [Dims.unravelIndex_ravelIndex _ hv' hr]
      simp only [h1, h2, h3]
      exact (hw c).2

/-- Case: 1-forms on 4 × 5 × 3 splines, Dirichlet in the first direction. -/
example := C26_rows_select_kept_dofs ⟨⟨1, 4, 5, 3, 3, 5, 3⟩, ("dirichlet", "periodic", "periodic")⟩ (Or.inr (Or.inl rfl))

/-- **C26** the rows are orthonormal: `E Eᵀ = 1`. -/
theorem C26_orthonormal_rows (B : BoundaryOp) (hk : B.Λ.k = 0 ∨ B.Λ.k = 1 ∨ B.Λ.k = 2 ∨ B.Λ.k = 3) :
    B.matrix * B.matrixᵀ = 1 := by
  obtain ⟨sel, hinj, hm, _⟩ := C26_rows_select_kept_dofs B hk
  ext r r'
  rw [Matrix.mul_apply, Matrix.one_apply]
  simp only [Matrix.transpose_apply, hm, mul_ite, mul_one, mul_zero]
  simp [hinj.eq_iff, eq_comm]

/-- Case: the same operator. -/
example := C26_orthonormal_rows ⟨⟨1, 4, 5, 3, 3, 5, 3⟩, ("dirichlet", "periodic", "periodic")⟩ (Or.inr (Or.inl rfl))

/-- **C26** `Eᵀ E` is the projection onto the kept degrees of freedom. -/
theorem C26_projection (B : BoundaryOp) (hk : B.Λ.k = 0 ∨ B.Λ.k = 1 ∨ B.Λ.k = 2 ∨ B.Λ.k = 3)
    (v : Fin B.Λ.n → ℝ) (c : Fin B.Λ.n) :
    (Kept B.Λ B.types (B.Λ.unravelIndex c) → (B.matrixᵀ *ᵥ (B.matrix *ᵥ v)) c = v c) ∧
    (¬ Kept B.Λ B.types (B.Λ.unravelIndex c) → (B.matrixᵀ *ᵥ (B.matrix *ᵥ v)) c = 0) := by
  obtain ⟨sel, hinj, hm, hr⟩ := C26_rows_select_kept_dofs B hk
  have h1 : ∀ r, (B.matrix *ᵥ v) r = v (sel r) := by
    intro r; simp [Matrix.mulVec, dotProduct, hm]
  have h2 : (B.matrixᵀ *ᵥ (B.matrix *ᵥ v)) c = ∑ r, if c = sel r then v (sel r) else 0 := by
    simp [Matrix.mulVec, dotProduct, hm] at h1 ⊢
  constructor
  · intro h
    obtain ⟨r, rfl⟩ := (hr c).mpr h
    rw [h2, Finset.sum_eq_single r]
    · simp
    · intro r' _ hne; rw [if_neg]; intro e; exact hne (hinj e).symm
    · simp
  · intro h
    rw [h2]
    apply Finset.sum_eq_zero
    intro r _
    rw [if_neg]
    rintro rfl
    exact h ((hr _).mp ⟨r, rfl⟩)

/-- Case: the same operator. -/
example := C26_projection ⟨⟨1, 4, 5, 3, 3, 5, 3⟩, ("dirichlet", "periodic", "periodic")⟩ (Or.inr (Or.inl rfl))

/-- **C26** coefficients that come out of the operator vanish on dropped degrees of freedom. -/
theorem boundary_vecMul_dropped (B : BoundaryOp) (hk : B.Λ.k = 0 ∨ B.Λ.k = 1 ∨ B.Λ.k = 2 ∨ B.Λ.k = 3)
    (u : Fin B.rowDims.n → ℝ) (c : Fin B.Λ.n) (h : ¬ Kept B.Λ B.types (B.Λ.unravelIndex c)) :
    Matrix.vecMul u B.matrix c = 0 := by
  obtain ⟨sel, hinj, hm, hr⟩ := C26_rows_select_kept_dofs B hk
  simp only [Matrix.vecMul, dotProduct, hm]
  apply Finset.sum_eq_zero
  intro r _
  rw [if_neg, mul_zero]
  rintro rfl
  exact h ((hr _).mp ⟨r, rfl⟩)

/-- Spline size and degree in a direction. -/
def at3 {α : Type*} (t : α × α × α) : Nat → α
  | 0 => t.1
  | 1 => t.2.1
  | _ => t.2.2

/-- **C26** vanishing traces: on a constrained face of a clamped direction, every discrete form built through
the operator has zero value in each component whose factor in that direction is not a derivative spline:
the value of 0-forms, the tangential components of 1-forms and the normal component of 2-forms. -/
theorem C26_vanishing_trace (k : Int) (hk : k = 0 ∨ k = 1 ∨ k = 2 ∨ k = 3) (ns ps : Nat × Nat × Nat)
    (types bc : String × String × String) (f : Form ℝ) (hf : Form.mk? k ns ps types = .ok f)
    (dir : Nat) (hdir : dir < 3) (hcl : at3 types dir = "clamped") (hp : at3 ps dir < at3 ns dir)
    (hfine : at3 ns dir - at3 ps dir ≤ 99900)
    (dof : Fin (BoundaryOp.mk f.dims bc).rowDims.n → ℝ) (comp : Nat) (hcomp : comp < f.dims.shape.length)
    (htr : isDeriv k comp dir = false) (x : ℝ × ℝ × ℝ)
    (hx : (at3 x dir = 0 ∧ LeftConstrained (at3 bc dir)) ∨ (at3 x dir = 1 ∧ RightConstrained (at3 bc dir))) :
    discreteFunction f dof (BoundaryOp.mk f.dims bc).matrix x comp = 0 := by
  have hw := Form.mk?_wf hf
  obtain ⟨_, hd, s0, s1, s2, _, _, _⟩ := Form.mk?_inv hf
  have hk' : f.dims.k = k := by rw [hd]
  have hB : (BoundaryOp.mk f.dims bc).Λ.k = 0 ∨ (BoundaryOp.mk f.dims bc).Λ.k = 1 ∨
    (BoundaryOp.mk f.dims bc).Λ.k = 2 ∨ (BoundaryOp.mk f.dims bc).Λ.k = 3 := by
    show f.dims.k = 0 ∨ f.dims.k = 1 ∨ f.dims.k = 2 ∨ f.dims.k = 3
    rw [hk']; exact hk
  unfold discreteFunction dotProduct
  apply Finset.sum_eq_zero
  intro a _
  by_cases hkept : Kept f.dims bc (f.dims.unravelIndex a)
  · obtain ⟨h1, h2⟩ := f.dims.unravelIndex_inRange hw.k a.2
    have hev := f.evaluate_ravel hw h1 x comp hcomp
    rw [h2] at hev
    simp only [hev]
    split
    · rename_i hc
      suffices basisValue f (f.dims.unravelIndex a).1 x (f.dims.unravelIndex a).2.1
        (f.dims.unravelIndex a).2.2.1 (f.dims.unravelIndex a).2.2.2 = 0 by rw [this, mul_zero]
      obtain ⟨k1, k2, k3⟩ := hkept
      rw [← hc] at k1 k2 k3 ⊢
      rw [hk'] at k1 k2 k3
      clear h2 hev
      generalize f.dims.unravelIndex a = U at *
      rw [show f.dims.nr = ns.1 by rw [hd]] at k1
      rw [show f.dims.nt = ns.2.1 by rw [hd]] at k2
      rw [show f.dims.nz = ns.2.2 by rw [hd]] at k3
      have hsz : ∀ dd, isDeriv k comp dd = false →
          (dd = 0 → U.2.1 < ns.1) ∧ (dd = 1 → U.2.2.1 < ns.2.1) ∧ (dd = 2 → U.2.2.2 < ns.2.2) := by
        intro dd hdd
        unfold Dims.InRange at h1
        rw [← hc] at h1
        obtain ⟨a1, a2, a3⟩ := h1
        have hcomp' := hcomp
        rw [hd] at a1 a2 a3 hcomp'
        simp only [Dims.shape] at hcomp'
        simp only [Dims.cshape, Dims.shape] at a1 a2 a3
        unfold isDeriv at hdd
        rcases hk with rfl | rfl | rfl | rfl <;> simp at hcomp' hdd <;>
          (try (subst hcomp')) <;> (try interval_cases comp) <;> simp at a1 a2 a3 hdd <;>
          refine ⟨?_, ?_, ?_⟩ <;> intro e <;> subst e <;> first | assumption | (exact absurd rfl hdd) | (simp at hdd)
      obtain ⟨z1, z2, z3⟩ := hsz dir htr
      have key : ∀ (n p : Nat) (s : SplineBasis ℝ) (b : String) (i : Nat) (xx : ℝ),
          SplineBasis.mk? n p "clamped" = .ok s → p < n → n - p ≤ 99900 → i < n → Keeps1 b n i →
          ((xx = 0 ∧ LeftConstrained b) ∨ (xx = 1 ∧ RightConstrained b)) → s.evaluate xx (i : Int) = 0 := by
        intro n p s b i xx hs hpn hfi hi hkp hxx
        obtain ⟨e0, e1⟩ := C05_clamped_endpoints n p hpn hfi s hs i hi
        rcases hxx with ⟨rfl, hl⟩ | ⟨rfl, hr⟩
        · rw [e0, if_neg (hkp.1 hl)]
        · rw [e1, if_neg (fun e => hkp.2 hr (by omega))]
      have hcase : dir = 0 ∨ dir = 1 ∨ dir = 2 := by omega
      unfold basisValue
      rw [hk']
      rcases hcase with rfl | rfl | rfl
      · simp only [at3] at hcl hp hfine hx
        rw [htr] at k1 ⊢
        have := key _ _ f.Λ0 _ _ x.1 (hcl ▸ s0) hp hfine (z1 rfl)
          (k1.resolve_left (by simp)) hx
        simp [factor, this]
      · simp only [at3] at hcl hp hfine hx
        rw [htr] at k2 ⊢
        have := key _ _ f.Λ1 _ _ x.2.1 (hcl ▸ s1) hp hfine (z2 rfl)
          (k2.resolve_left (by simp)) hx
        simp [factor, this]
      · simp only [at3] at hcl hp hfine hx
        rw [htr] at k3 ⊢
        have := key _ _ f.Λ2 _ _ x.2.2 (hcl ▸ s2) hp hfine (z3 rfl)
          (k3.resolve_left (by simp)) hx
        simp [factor, this]
    · rw [mul_zero]
  · have := boundary_vecMul_dropped (BoundaryOp.mk f.dims bc) hB dof a hkept
    rw [this, zero_mul]

/-- Case: the axial component of a 1-form vanishes at `r = 1`. -/
example (dof) := C26_vanishing_trace 1 (by norm_num) (4, 3, 2) (2, 1, 1) ("clamped", "periodic", "periodic")
  ("dirichlet", "periodic", "periodic") _ rfl 0 (by norm_num) rfl (by decide) (by decide) dof 2 (by decide) rfl
  (1, 1 / 3, 1 / 4) (Or.inr ⟨rfl, Or.inl rfl⟩)

end Mrx.Props
