import Verif.Model.Extraction
import Verif.Spec.Extraction
import Verif.Proofs.FormEval

/-! # The boundary operator is a selection -/

set_option linter.unusedSectionVars false

namespace Mrx
open Finset Jax Spec

namespace BoundaryOp

def shift (t : String) : Nat := if t = "dirichlet" ∨ t = "left" then 1 else 0

theorem lt_getDim {t : String} {n i : Nat} (h : i < getDim n t) : i + shift t < n := by
  unfold getDim at h; unfold shift
  split_ifs at * <;> first | omega | simp_all

theorem keeps1_iff (t : String) (n p : Nat) (hp : p < n) :
    Keeps1 t n p ↔ ∃ i, i < getDim n t ∧ i + shift t = p := by
  unfold Keeps1 LeftConstrained RightConstrained getDim shift
  by_cases h1 : t = "dirichlet"
  · subst h1; simp
    constructor
    · rintro ⟨a, b⟩; exact ⟨p - 1, by omega, by omega⟩
    · rintro ⟨i, a, b⟩; omega
  · by_cases h2 : t = "right"
    · subst h2; simp; omega
    · by_cases h3 : t = "left"
      · subst h3; simp
        constructor
        · intro a; exact ⟨p - 1, by omega, by omega⟩
        · rintro ⟨i, a, b⟩; omega
      · simp [h1, h2, h3, hp]

/-- shift of component `c` in a direction. -/
def sh (B : BoundaryOp) (c dir : Nat) : Nat :=
  if isDeriv B.Λ.k c dir then 0 else shift (typeOf B.types dir)

theorem target_eq (t : String) (i p : Nat) : ((i : Int) = target t p) ↔ i + shift t = p := by
  unfold target shift; split_ifs <;> omega

theorem rowDims_k (B : BoundaryOp) : B.rowDims.k = B.Λ.k := rfl

theorem sel_inRange (B : BoundaryOp) {c i j l : Nat}
    (h : B.rowDims.InRange c i j l) (hk : B.Λ.k = 0 ∨ B.Λ.k = 1 ∨ B.Λ.k = 2 ∨ B.Λ.k = 3) :
    B.Λ.InRange c (i + B.sh c 0) (j + B.sh c 1) (l + B.sh c 2) := by
  have hc := h.comp_lt
  obtain ⟨h1, h2, h3⟩ := h
  unfold Dims.InRange
  rcases hk with hk | hk | hk | hk <;>
    (simp only [Dims.shape, rowDims_k, hk] at hc; simp at hc) <;> (try subst hc) <;> (try interval_cases c) <;>
    (simp only [Dims.cshape, Dims.shape, rowDims_k, hk] at h1 h2 h3 ⊢
     simp [rowDims] at h1 h2 h3
     simp [sh, hk, isDeriv, typeOf]
     refine ⟨?_, ?_, ?_⟩ <;> first | assumption | exact lt_getDim ‹_›)

theorem element_eq (B : BoundaryOp) (hk : B.Λ.k = 0 ∨ B.Λ.k = 1 ∨ B.Λ.k = 2 ∨ B.Λ.k = 3)
    {c i j l c' p m n : Nat} (h : B.rowDims.InRange c i j l) (h' : B.Λ.InRange c' p m n) :
    B.element (B.rowDims.ravelIndex c i j l) (B.Λ.ravelIndex c' p m n)
      = if c = c' ∧ i + B.sh c 0 = p ∧ j + B.sh c 1 = m ∧ l + B.sh c 2 = n then 1 else 0 := by
  have hv : Dims.validDegree B.Λ.k := by unfold Dims.validDegree; omega
  have hv' : Dims.validDegree B.rowDims.k := hv
  have hc := h.comp_lt
  have hc' := h'.comp_lt
  by_cases h3 : B.Λ.k = 3
  · have hsh : ∀ dir, B.sh c dir = 0 := by intro dir; simp [sh, h3, isDeriv]
    have hr : B.rowDims.ravelIndex c i j l = B.Λ.ravelIndex c i j l := by
      simp [Dims.ravelIndex, rowDims_k, h3, rowDims]
    have hin : B.Λ.InRange c i j l := by
      have := B.sel_inRange h hk; simpa [hsh] using this
    unfold element
    simp only [h3]
    simp only [show ¬ ((3:Int) = 0) by decide, show ¬ ((3:Int) = 1) by decide,
      show ¬ ((3:Int) = 2) by decide, show ¬ ((3:Int) = -1) by decide, if_false, or_self, hr, hsh, Nat.add_zero]
    by_cases e : c = c' ∧ i = p ∧ j = m ∧ l = n
    · obtain ⟨rfl, rfl, rfl, rfl⟩ := e; simp
    · rw [if_neg e, if_neg]
      intro heq
      have := congrArg B.Λ.unravelIndex heq
      rw [Dims.unravelIndex_ravelIndex _ hv hin, Dims.unravelIndex_ravelIndex _ hv h'] at this
      simp only [Prod.mk.injEq] at this
      exact e this
  · unfold element
    rw [Dims.unravelIndex_ravelIndex _ hv' h, Dims.unravelIndex_ravelIndex _ hv h']
    simp only [target_eq, Nat.cast_inj]
    rcases hk with hk | hk | hk | hk
    · simp [Dims.shape, rowDims_k, hk] at hc hc'
      subst hc; subst hc'
      simp [hk, sh, isDeriv, typeOf]
    · simp only [Dims.shape, rowDims_k, hk] at hc
      simp at hc
      simp only [hk]
      by_cases hcc : c = c'
      · subst hcc
        interval_cases c <;> simp [sh, hk, isDeriv, typeOf]
      · simp [hcc]
    · simp only [Dims.shape, rowDims_k, hk] at hc
      simp at hc
      simp only [hk]
      by_cases hcc : c = c'
      · subst hcc
        interval_cases c <;> simp [sh, hk, isDeriv, typeOf]
      · simp [hcc]
    · exact absurd hk h3

theorem kept_iff (B : BoundaryOp) (hk : B.Λ.k = 0 ∨ B.Λ.k = 1 ∨ B.Λ.k = 2 ∨ B.Λ.k = 3)
    {c p m n : Nat} (h : B.Λ.InRange c p m n) :
    Kept B.Λ B.types (c, p, m, n) ↔
      ∃ i j l, B.rowDims.InRange c i j l ∧ i + B.sh c 0 = p ∧ j + B.sh c 1 = m ∧ l + B.sh c 2 = n := by
  have hc := h.comp_lt
  obtain ⟨h1, h2, h3⟩ := h
  unfold Kept Dims.InRange
  have triv : ∀ (a b : Nat), a < b → ∃ i, i < b ∧ i = a := fun a b h => ⟨a, h, rfl⟩
  have split3 : ∀ (P1 P2 P3 Q1 Q2 Q3 : Nat → Prop),
      (∃ i j l, (P1 i ∧ P2 j ∧ P3 l) ∧ Q1 i ∧ Q2 j ∧ Q3 l) ↔
      ((∃ i, P1 i ∧ Q1 i) ∧ (∃ j, P2 j ∧ Q2 j) ∧ (∃ l, P3 l ∧ Q3 l)) := by
    intros; constructor
    · rintro ⟨i, j, l, ⟨a, b, c⟩, d, e, f⟩; exact ⟨⟨i, a, d⟩, ⟨j, b, e⟩, ⟨l, c, f⟩⟩
    · rintro ⟨⟨i, a, d⟩, ⟨j, b, e⟩, ⟨l, c, f⟩⟩; exact ⟨i, j, l, ⟨a, b, c⟩, d, e, f⟩
  rw [split3 (fun i => i < (B.rowDims.cshape c).1) (fun i => i < (B.rowDims.cshape c).2.1)
    (fun i => i < (B.rowDims.cshape c).2.2) (fun i => i + B.sh c 0 = p) (fun i => i + B.sh c 1 = m)
    (fun i => i + B.sh c 2 = n)]
  have k1 := fun hh => keeps1_iff B.types.1 B.Λ.nr p hh
  have k2 := fun hh => keeps1_iff B.types.2.1 B.Λ.nt m hh
  have k3 := fun hh => keeps1_iff B.types.2.2 B.Λ.nz n hh
  rcases hk with hk | hk | hk | hk <;>
    (simp only [Dims.shape, hk] at hc; simp at hc) <;> (try subst hc) <;> (try interval_cases c) <;>
    (simp only [Dims.cshape, Dims.shape, rowDims_k, hk] at h1 h2 h3 ⊢
     simp at h1 h2 h3
     simp [rowDims, sh, hk, isDeriv, typeOf]
     first
     | (rw [k1 h1, k2 h2, k3 h3])
     | (rw [k2 h2, k3 h3]; simp [h1])
     | (rw [k1 h1, k3 h3]; simp [h2])
     | (rw [k1 h1, k2 h2]; simp [h3])
     | (rw [k1 h1]; simp [h2, h3])
     | (rw [k2 h2]; simp [h1, h3])
     | (rw [k3 h3]; simp [h1, h2])
     | (simp [h1, h2, h3]))

end BoundaryOp
end Mrx
