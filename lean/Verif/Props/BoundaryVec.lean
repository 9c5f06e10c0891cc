import Verif.Props.Boundary

/-! # C27: boundary operator for vector fields (`k = -1`) -/

set_option linter.unusedSectionVars false

namespace Mrx.Props
open Finset Mrx Spec Matrix

/-- **C27** (the part that holds) for vector fields, as long as no face `x = 0` is constrained ("right" and
unconstrained directions only), the operator selects exactly the kept degrees of freedom. Missing: any
direction with "dirichlet" or "left", where it is false (see below). -/
theorem C27_vector_selection (B : BoundaryOp) (hk : B.Λ.k = -1)
    (h0 : ¬ LeftConstrained B.types.1) (h1 : ¬ LeftConstrained B.types.2.1) (h2 : ¬ LeftConstrained B.types.2.2) :
    ∃ sel : Fin B.rowDims.n → Fin B.Λ.n, Function.Injective sel ∧
      (∀ r c, B.matrix r c = if c = sel r then 1 else 0) ∧
      (∀ c, (∃ r, sel r = c) ↔ Kept B.Λ B.types (B.Λ.unravelIndex c)) := by
  have hv : Dims.validDegree B.Λ.k := by unfold Dims.validDegree; omega
  have hv' : Dims.validDegree B.rowDims.k := hv
  have hu := fun r : Fin B.rowDims.n => B.rowDims.unravelIndex_inRange hv' r.2
  have hw := fun r : Fin B.Λ.n => B.Λ.unravelIndex_inRange hv r.2
  have sh0 : ∀ t, ¬ LeftConstrained t → BoundaryOp.shift t = 0 := by
    intro t ht; unfold BoundaryOp.shift; exact if_neg ht
  have hsz : ∀ c i j l, B.rowDims.InRange c i j l ↔
      c < 3 ∧ i < getDim B.Λ.nr B.types.1 ∧ j < getDim B.Λ.nt B.types.2.1 ∧ l < getDim B.Λ.nz B.types.2.2 := by
    intro c i j l
    constructor
    · intro h
      have hc := h.comp_lt
      simp [Dims.shape, BoundaryOp.rowDims_k, hk] at hc
      unfold Dims.InRange at h
      simp only [Dims.cshape, Dims.shape, BoundaryOp.rowDims_k, hk] at h
      interval_cases c <;> simpa [BoundaryOp.rowDims] using h
    · rintro ⟨hc, h⟩
      unfold Dims.InRange
      simp only [Dims.cshape, Dims.shape, BoundaryOp.rowDims_k, hk]
      interval_cases c <;> simpa [BoundaryOp.rowDims] using h
  have hsz' : ∀ c i j l, B.Λ.InRange c i j l ↔
      c < 3 ∧ i < B.Λ.nr ∧ j < B.Λ.nt ∧ l < B.Λ.nz := by
    intro c i j l
    constructor
    · intro h
      have hc := h.comp_lt
      simp [Dims.shape, hk] at hc
      unfold Dims.InRange at h
      simp only [Dims.cshape, Dims.shape, hk] at h
      interval_cases c <;> simpa using h
    · rintro ⟨hc, h⟩
      unfold Dims.InRange
      simp only [Dims.cshape, Dims.shape, hk]
      interval_cases c <;> simpa using h
  have hin : ∀ r : Fin B.rowDims.n, B.Λ.InRange (B.rowDims.unravelIndex r).1 (B.rowDims.unravelIndex r).2.1
      (B.rowDims.unravelIndex r).2.2.1 (B.rowDims.unravelIndex r).2.2.2 := by
    intro r
    obtain ⟨a, b, c, d⟩ := (hsz _ _ _ _).mp (hu r).1
    refine (hsz' _ _ _ _).mpr ⟨a, ?_, ?_, ?_⟩
    · have := BoundaryOp.lt_getDim b; omega
    · have := BoundaryOp.lt_getDim c; omega
    · have := BoundaryOp.lt_getDim d; omega
  let sel : Fin B.rowDims.n → Fin B.Λ.n := fun r => ⟨_, Dims.ravelIndex_lt _ hv (hin r)⟩
  have hsel : ∀ r, B.Λ.unravelIndex (sel r) = B.rowDims.unravelIndex r := fun r =>
    Dims.unravelIndex_ravelIndex _ hv (hin r)
  have inj : ∀ c c' : Fin B.Λ.n, B.Λ.unravelIndex c = B.Λ.unravelIndex c' → c = c' := by
    intro c c' h
    apply Fin.ext
    rw [← (hw c).2, ← (hw c').2, h]
  have inj' : ∀ c c' : Fin B.rowDims.n, B.rowDims.unravelIndex c = B.rowDims.unravelIndex c' → c = c' := by
    intro c c' h
    apply Fin.ext
    rw [← (hu c).2, ← (hu c').2, h]
  refine ⟨sel, ?_, ?_, ?_⟩
  · intro r r' h
    apply inj'
    rw [← hsel, ← hsel, h]
  · intro r c
    unfold BoundaryOp.matrix BoundaryOp.element
    have t0 : ∀ p, BoundaryOp.target B.types.1 p = p := fun p => by
      unfold BoundaryOp.target; exact if_neg h0
    have t1 : ∀ p, BoundaryOp.target B.types.2.1 p = p := fun p => by
      unfold BoundaryOp.target; exact if_neg h1
    have t2 : ∀ p, BoundaryOp.target B.types.2.2 p = p := fun p => by
      unfold BoundaryOp.target; exact if_neg h2
    simp only [t0, t1, t2, hk, show ¬ ((-1:Int) = 0) by decide, show ¬ ((-1:Int) = 1) by decide, if_false, or_true,
      if_true, Nat.cast_inj, ite_self]
    have : c = sel r ↔ B.rowDims.unravelIndex r = B.Λ.unravelIndex c := by
      constructor
      · rintro rfl; exact (hsel r).symm
      · intro h; apply inj; rw [hsel, h]
    by_cases h : c = sel r
    · rw [if_pos h]; rw [this] at h; rw [h]; simp
    · rw [if_neg h]
      rw [this] at h
      by_cases hc : (B.rowDims.unravelIndex r).1 = (B.Λ.unravelIndex c).1
      · rw [if_pos hc, if_neg]; · simp
        intro hh
        exact h (Prod.ext hc (Prod.ext hh.1 (Prod.ext hh.2.1 hh.2.2)))
      · rw [if_neg hc]; simp
  · intro c
    have hK : Kept B.Λ B.types (B.Λ.unravelIndex c) ↔ B.rowDims.InRange (B.Λ.unravelIndex c).1
        (B.Λ.unravelIndex c).2.1 (B.Λ.unravelIndex c).2.2.1 (B.Λ.unravelIndex c).2.2.2 := by
      obtain ⟨a, b, c', d⟩ := (hsz' _ _ _ _).mp (hw c).1
      have e : ∀ dir, isDeriv B.Λ.k (B.Λ.unravelIndex c).1 dir = false := by
        intro dir; simp [isDeriv, hk]
      unfold Kept
      rw [hsz]
      simp only [e, Bool.false_eq_true, false_or]
      rw [BoundaryOp.keeps1_iff _ _ _ b, BoundaryOp.keeps1_iff _ _ _ c', BoundaryOp.keeps1_iff _ _ _ d,
        sh0 _ h0, sh0 _ h1, sh0 _ h2]
      simp [a]
    rw [hK]
    constructor
    · rintro ⟨r, rfl⟩; rw [hsel]; exact (hu r).1
    · intro h
      refine ⟨⟨_, Dims.ravelIndex_lt _ hv' h⟩, ?_⟩
      apply inj
      rw [hsel]
      exact Dims.unravelIndex_ravelIndex _ hv' h

/-- Case: vector fields on 4 × 5 × 3 splines, the right end of the first direction constrained. -/
example := C27_vector_selection ⟨⟨-1, 4, 5, 3, 3, 5, 3⟩, ("right", "periodic", "free")⟩ rfl (by simp [LeftConstrained])
  (by simp [LeftConstrained]) (by simp [LeftConstrained])

/-- **C27** negation: for **every** vector-field space with at least three radial splines, the operator with
a Dirichlet condition in `r` keeps a degree of freedom that the condition excludes (component 1, first radial
spline) and loses one that it must keep (component 1, radial spline `nr - 2`). -/
theorem C27_dirichlet_vector_wrong (d : Dims) (hk : d.k = -1) (hr : 3 ≤ d.nr) (ht : 1 ≤ d.nt) (hz : 1 ≤ d.nz) :
    let B : BoundaryOp := ⟨d, ("dirichlet", "none", "none")⟩
    (∃ (r : Fin B.rowDims.n) (c : Fin d.n), B.matrix r c = 1 ∧ ¬ Kept d B.types (d.unravelIndex c)) ∧
    (∃ c : Fin d.n, Kept d B.types (d.unravelIndex c) ∧ ∀ r : Fin B.rowDims.n, B.matrix r c = 0) := by
  intro B
  have hv : Dims.validDegree d.k := by unfold Dims.validDegree; omega
  have hv' : Dims.validDegree B.rowDims.k := hv
  have hBk : B.rowDims.k = -1 := hk
  have g0 : getDim d.nr "dirichlet" = d.nr - 2 := by simp [getDim]
  have gn : ∀ n, getDim n "none" = n := by intro n; simp [getDim]
  have hrow : B.rowDims.InRange 1 0 0 0 := by
    unfold Dims.InRange
    simp only [Dims.cshape, Dims.shape, hBk]
    simp [BoundaryOp.rowDims, B, g0, gn]; omega
  have hcol : ∀ i, i < d.nr → d.InRange 1 i 0 0 := by
    intro i hi
    unfold Dims.InRange
    simp only [Dims.cshape, Dims.shape, hk]
    simp; omega
  have hcase : ∀ (r : Fin B.rowDims.n) (c : Fin d.n) (i : Nat), d.unravelIndex c = (1, i, 0, 0) →
      B.matrix r c = if B.rowDims.unravelIndex r = (1, i, 0, 0) then 1 else 0 := by
    intro r c i hc
    unfold BoundaryOp.matrix BoundaryOp.element
    simp only [show B.Λ = d from rfl, hk, show ¬ ((-1:Int) = 0) by decide, show ¬ ((-1:Int) = 1) by decide,
      if_false, or_true, if_true, hc]
    simp only [show B.types = ("dirichlet", "none", "none") from rfl, BoundaryOp.target]
    generalize B.rowDims.unravelIndex r = U
    obtain ⟨u0, u1, u2, u3⟩ := U
    simp only [Prod.mk.injEq]
    by_cases h : u0 = 1
    · subst h
      simp
    · simp [h]
  refine ⟨⟨⟨_, Dims.ravelIndex_lt _ hv' hrow⟩, ⟨_, Dims.ravelIndex_lt _ hv (hcol 0 (by omega))⟩, ?_, ?_⟩, ?_⟩
  · rw [hcase _ _ 0 (Dims.unravelIndex_ravelIndex _ hv (hcol 0 (by omega)))]
    simp only [Dims.unravelIndex_ravelIndex _ hv' hrow]; simp
  · simp only [Dims.unravelIndex_ravelIndex _ hv (hcol 0 (by omega))]
    rintro ⟨h, _⟩
    simp only [isDeriv, hk] at h
    simp [Keeps1, LeftConstrained, B] at h
  · refine ⟨⟨_, Dims.ravelIndex_lt _ hv (hcol (d.nr - 2) (by omega))⟩, ?_, ?_⟩
    · simp only [Dims.unravelIndex_ravelIndex _ hv (hcol (d.nr - 2) (by omega))]
      refine ⟨Or.inr ?_, Or.inr ?_, Or.inr ?_⟩ <;>
        simp [Keeps1, LeftConstrained, RightConstrained, B] <;> omega
    · intro r
      rw [hcase r _ (d.nr - 2) (Dims.unravelIndex_ravelIndex _ hv (hcol (d.nr - 2) (by omega))), if_neg]
      intro h
      have := (B.rowDims.unravelIndex_inRange hv' r.2).1
      rw [h] at this
      unfold Dims.InRange at this
      simp only [Dims.cshape, Dims.shape, hBk] at this
      simp [BoundaryOp.rowDims, B, g0, gn] at this

/-! ## Non-vacuity -/

/-- sizes and a row of a concrete operator: 1-forms, 4×3×2 splines, Dirichlet in `r`. -/
example : (BoundaryOp.mk ⟨1, 4, 3, 2, 3, 3, 2⟩ ("dirichlet", "none", "none")).rowDims.n = 42 ∧
    (BoundaryOp.mk ⟨1, 4, 3, 2, 3, 3, 2⟩ ("dirichlet", "none", "none")).element 18 24 = 1 ∧
    (BoundaryOp.mk ⟨1, 4, 3, 2, 3, 3, 2⟩ ("dirichlet", "none", "none")).element 18 18 = 0 := by
  decide +kernel

example : ∃ f : Form ℝ, Form.mk? 1 (4, 4, 1) (2, 2, 0) ("clamped", "periodic", "constant") = .ok f ∧
    isDeriv 1 1 0 = false ∧ LeftConstrained "dirichlet" := by
  have h : ∃ f : Form ℝ, Form.mk? 1 (4, 4, 1) (2, 2, 0) ("clamped", "periodic", "constant") = .ok f := by
    unfold Form.mk?
    simp [mk?_clamped 4 2 (Or.inl (by omega)), mk?_periodic 4 2 (Or.inl (by omega)),
      mk?_deriv_clamped 4 2 (by omega) (by omega), mk?_deriv_periodic 4 2 (by omega) (by omega) (by omega),
      show SplineBasis.mk? (K := ℝ) 1 0 "constant" = .ok ⟨1, 0, "constant", [0, 1]⟩ from rfl,
      show DerivativeSpline.mk? (K := ℝ) ⟨1, 0, "constant", [0, 1]⟩
        = .ok ⟨1, 0, "constant", [0, 1], ⟨1, 0, "constant", [0, 1]⟩⟩ from by simp [DerivativeSpline.mk?, SplineBasis.mk?],
      Dims.validDegree]
  obtain ⟨f, hf⟩ := h
  exact ⟨f, hf, by decide, Or.inl rfl⟩

end Mrx.Props
