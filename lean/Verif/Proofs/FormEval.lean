import Verif.Proofs.Forms
import Verif.Spec.Forms

/-! # Evaluation of forms -/

set_option linter.unusedSectionVars false

namespace Mrx
open Finset Jax

variable {K : Type*} [Field K] [LinearOrder K]

namespace Form

/-- The stored sizes are the sizes of the stored bases. -/
structure WF (f : Form K) : Prop where
  k : Dims.validDegree f.dims.k
  r : f.Λ0.n = f.dims.nr
  t : f.Λ1.n = f.dims.nt
  z : f.Λ2.n = f.dims.nz
  dr : f.dΛ0.n = f.dims.dr
  dt : f.dΛ1.n = f.dims.dt
  dz : f.dΛ2.n = f.dims.dz

theorem spline_mk?_ok {n p : Nat} {ty : String} {T} {s : SplineBasis K}
    (h : SplineBasis.mk? n p ty T = .ok s) : s.n = n ∧ s.p = p ∧ s.type = ty := by
  unfold SplineBasis.mk? at h
  split at h
  · cases h
  · split_ifs at h
    cases h; exact ⟨rfl, rfl, rfl⟩

theorem deriv_mk?_ok {s : SplineBasis K} {d : DerivativeSpline K}
    (h : DerivativeSpline.mk? s = .ok d) : d.n = dsize s.n s.type := by
  unfold DerivativeSpline.mk? at h
  by_cases h0 : s.type ≠ "constant" ∧ s.p = 0
  · rw [if_pos h0] at h; cases h
  · rw [if_neg h0] at h
    split at h
    · cases h
    · cases h; rfl

theorem mk?_inv {k : Int} {ns ps : Nat × Nat × Nat} {types : String × String × String} {f : Form K}
    (h : mk? k ns ps types = .ok f) :
    Dims.validDegree k ∧ f.dims = ⟨k, ns.1, ns.2.1, ns.2.2, dsize ns.1 types.1, dsize ns.2.1 types.2.1,
      dsize ns.2.2 types.2.2⟩ ∧
    SplineBasis.mk? ns.1 ps.1 types.1 = .ok f.Λ0 ∧ SplineBasis.mk? ns.2.1 ps.2.1 types.2.1 = .ok f.Λ1 ∧
    SplineBasis.mk? ns.2.2 ps.2.2 types.2.2 = .ok f.Λ2 ∧
    DerivativeSpline.mk? f.Λ0 = .ok f.dΛ0 ∧ DerivativeSpline.mk? f.Λ1 = .ok f.dΛ1 ∧
    DerivativeSpline.mk? f.Λ2 = .ok f.dΛ2 := by
  unfold mk? at h
  split at h
  · split at h
    · split_ifs at h with hk
      cases h
      refine ⟨hk, rfl, ?_, ?_, ?_, ?_, ?_, ?_⟩ <;> assumption
    · cases h
  · cases h

theorem mk?_wf {k : Int} {ns ps : Nat × Nat × Nat} {types : String × String × String} {f : Form K}
    (h : mk? k ns ps types = .ok f) : f.WF := by
  obtain ⟨hk, hd, h0, h1, h2, d0, d1, d2⟩ := mk?_inv h
  obtain ⟨a0, _, b0⟩ := spline_mk?_ok h0
  obtain ⟨a1, _, b1⟩ := spline_mk?_ok h1
  obtain ⟨a2, _, b2⟩ := spline_mk?_ok h2
  have c0 := deriv_mk?_ok d0
  have c1 := deriv_mk?_ok d1
  have c2 := deriv_mk?_ok d2
  rw [a0, b0] at c0; rw [a1, b1] at c1; rw [a2, b2] at c2
  constructor <;> simp only [hd] <;> assumption

theorem baseValue_eq (f : Form K) (hf : f.WF) {c i j l : Nat} (h : f.dims.InRange c i j l)
    (x : K × K × K) :
    f.baseValue c x ((i * (f.dims.cshape c).2.1 + j) * (f.dims.cshape c).2.2 + l)
      = Spec.basisValue f c x i j l := by
  have hc := h.comp_lt
  have hu := unravelIndex3_flat h.1 h.2.1 h.2.2
  obtain ⟨hk, h1, h2, h3, h4, h5, h6⟩ := hf
  unfold baseValue bases Spec.basisValue Spec.factor Spec.isDeriv
  rcases hk with hk | hk | hk | hk | hk <;>
    (simp only [Dims.shape, hk] at hc; simp at hc) <;>
    (try subst hc) <;> (try interval_cases c) <;>
    (simp only [Dims.cshape, Dims.shape, hk] at hu ⊢; simp at hu ⊢) <;>
    simp [TensorBasis.evaluate, Basis1.n, h1, h2, h3, h4, h5, h6, hu, Basis1.evaluate]

theorem evaluate_ravel (f : Form K) (hf : f.WF) {c i j l : Nat} (h : f.dims.InRange c i j l)
    (x : K × K × K) (comp : Nat) (hcomp : comp < f.dims.shape.length) :
    f.evaluate x (f.dims.ravelIndex c i j l) comp
      = if comp = c then Spec.basisValue f c x i j l else 0 := by
  have hc := h.comp_lt
  rw [f.dims.ravelIndex_eq hf.k h]
  unfold evaluate
  rw [f.dims.vectorIndex_eq hf.k h]
  simp only []
  by_cases h03 : f.dims.k = 0 ∨ f.dims.k = 3
  · rw [if_pos h03]
    have e1 : f.dims.shape.length = 1 := by rcases h03 with h | h <;> simp [Dims.shape, h]
    obtain rfl : c = 0 := by omega
    obtain rfl : comp = 0 := by omega
    rw [if_pos rfl, one_mul, baseValue_eq f hf h]
  · rw [if_neg h03]
    have hl := f.dims.shape_length_le
    have hb := baseValue_eq f hf h x
    by_cases he : comp = c
    · rw [if_pos he, if_pos he, one_mul]
      have : c = 0 ∨ c = 1 ∨ c = 2 := by omega
      rcases this with rfl | rfl | rfl <;> simp <;> exact hb
    · rw [if_neg he, if_neg he, zero_mul]

end Form
end Mrx
