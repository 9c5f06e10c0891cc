import Verif.Model.Forms
import Verif.Proofs.Index
import Mathlib.Tactic.IntervalCases

/-! # Index arithmetic of differential forms -/

set_option linter.unusedSectionVars false

namespace Mrx
open Finset Jax

namespace Dims

/-- Shape of component `c`, `(0,0,0)` if there is no such component. -/
def cshape (d : Dims) (c : Nat) : Nat × Nat × Nat := d.shape.getD c (0, 0, 0)

/-- First flat index of component `c`. -/
def off (d : Dims) (c : Nat) : Nat := if c = 0 then 0 else if c = 1 then d.n1 else d.n1 + d.n2

/-- `(c,i,j,l)` is a degree of freedom. -/
def InRange (d : Dims) (c i j l : Nat) : Prop :=
  i < (d.cshape c).1 ∧ j < (d.cshape c).2.1 ∧ l < (d.cshape c).2.2

theorem size_comp (d : Dims) (hk : validDegree d.k) :
    d.n1 = (d.cshape 0).1 * (d.cshape 0).2.1 * (d.cshape 0).2.2 ∧
    d.n2 = (d.cshape 1).1 * (d.cshape 1).2.1 * (d.cshape 1).2.2 ∧
    d.n3 = (d.cshape 2).1 * (d.cshape 2).2.1 * (d.cshape 2).2.2 := by
  rcases hk with h | h | h | h | h <;> simp [cshape, shape, n1, n2, n3, h]

theorem InRange.comp_lt {d : Dims} {c i j l : Nat} (h : d.InRange c i j l) : c < d.shape.length := by
  by_contra hc
  have : d.cshape c = (0,0,0) := by
    unfold cshape; rw [List.getD_eq_getElem?_getD, List.getElem?_eq_none (by omega)]; rfl
  unfold InRange at h; rw [this] at h; simp at h

theorem shape_length_le (d : Dims) : d.shape.length ≤ 3 := by
  unfold shape; split_ifs <;> simp

theorem ravelIndex_eq (d : Dims) (hk : validDegree d.k) {c i j l : Nat} (h : d.InRange c i j l) :
    d.ravelIndex c i j l = d.off c + ((i * (d.cshape c).2.1 + j) * (d.cshape c).2.2 + l) := by
  have hc := h.comp_lt
  obtain ⟨h1, h2, h3⟩ := h
  rcases hk with hk | hk | hk | hk | hk <;>
    (simp only [shape, hk] at hc
     simp at hc
     try interval_cases c) <;>
    (try subst hc) <;>
    simp only [cshape, shape, hk] at h1 h2 h3 <;> simp at h1 h2 h3 <;>
    simp [ravelIndex, hk, cshape, shape, off, ravelMultiIndex3_eq h1 h2 h3]

theorem off_add_lt (d : Dims) (hk : validDegree d.k) {c i j l : Nat} (h : d.InRange c i j l) :
    d.off c + ((i * (d.cshape c).2.1 + j) * (d.cshape c).2.2 + l) < d.n ∧
    (c = 0 → d.off c + ((i * (d.cshape c).2.1 + j) * (d.cshape c).2.2 + l) < d.n1) ∧
    (c = 1 → d.off c + ((i * (d.cshape c).2.1 + j) * (d.cshape c).2.2 + l) < d.n1 + d.n2) := by
  have hf := flat_lt h.1 h.2.1 h.2.2
  have hc := h.comp_lt
  have hl := d.shape_length_le
  obtain ⟨e1, e2, e3⟩ := d.size_comp hk
  have : c = 0 ∨ c = 1 ∨ c = 2 := by omega
  unfold n off
  rcases this with rfl | rfl | rfl <;> simp <;> omega

theorem vectorIndex_eq (d : Dims) (hk : validDegree d.k) {c i j l : Nat} (h : d.InRange c i j l) :
    d.vectorIndex (d.off c + ((i * (d.cshape c).2.1 + j) * (d.cshape c).2.2 + l))
      = (c, (i * (d.cshape c).2.1 + j) * (d.cshape c).2.2 + l) := by
  have hc := h.comp_lt
  obtain ⟨hn, h0, h1⟩ := d.off_add_lt hk h
  unfold vectorIndex
  by_cases h03 : d.k = 0 ∨ d.k = 3
  · rw [if_pos h03]
    have : c = 0 := by rcases h03 with h | h <;> simp [shape, h] at hc <;> exact hc
    subst this; simp [off]
  · rw [if_neg h03]
    have hl := d.shape_length_le
    have hcc : c = 0 ∨ c = 1 ∨ c = 2 := by omega
    rcases hcc with rfl | rfl | rfl
    · have := h0 rfl
      simp only [off, if_true, Nat.zero_add] at this ⊢
      rw [if_neg (by omega), if_neg (by omega)]; simp
    · have := h1 rfl
      simp only [off, if_true, one_ne_zero, if_false] at this ⊢
      rw [if_pos (by omega), if_neg (by omega)]; simp
    · have e : d.off 2 = d.n1 + d.n2 := by simp [off]
      rw [e]
      simp only []
      rw [if_pos (by omega), if_pos (by omega)]
      simp; omega

theorem unravelIndex_off (d : Dims) (hk : validDegree d.k) {c i j l : Nat} (h : d.InRange c i j l) :
    d.unravelIndex (d.off c + ((i * (d.cshape c).2.1 + j) * (d.cshape c).2.2 + l)) = (c, i, j, l) := by
  have hv := d.vectorIndex_eq hk h
  have hc := h.comp_lt
  have hu := unravelIndex3_flat h.1 h.2.1 h.2.2
  rcases id hk with hk | hk | hk | hk | hk <;>
    (unfold unravelIndex; simp [hk]) <;>
    (simp only [shape, hk] at hc; simp at hc) <;>
    first
    | (subst hc
       simp only [cshape, shape, hk, off] at hu ⊢
       simp at hu ⊢
       exact hu)
    | (rw [hv]
       interval_cases c <;> simp [cshape, shape, hk] at hu ⊢ <;> exact hu)

theorem unravelIndex_ravelIndex (d : Dims) (hk : validDegree d.k) {c i j l : Nat}
    (h : d.InRange c i j l) : d.unravelIndex (d.ravelIndex c i j l) = (c, i, j, l) := by
  rw [d.ravelIndex_eq hk h, d.unravelIndex_off hk h]

theorem ravelIndex_lt (d : Dims) (hk : validDegree d.k) {c i j l : Nat} (h : d.InRange c i j l) :
    d.ravelIndex c i j l < d.n := by
  rw [d.ravelIndex_eq hk h]; exact (d.off_add_lt hk h).1

theorem exists_inRange (d : Dims) (hk : validDegree d.k) {idx : Nat} (h : idx < d.n) :
    ∃ c i j l, d.InRange c i j l ∧
      idx = d.off c + ((i * (d.cshape c).2.1 + j) * (d.cshape c).2.2 + l) := by
  obtain ⟨e1, e2, e3⟩ := d.size_comp hk
  have key : ∀ c m, m < (d.cshape c).1 * (d.cshape c).2.1 * (d.cshape c).2.2 → idx = d.off c + m →
      ∃ c i j l, d.InRange c i j l ∧
      idx = d.off c + ((i * (d.cshape c).2.1 + j) * (d.cshape c).2.2 + l) := by
    intro c m hm he
    obtain ⟨a1, a2, a3, a4⟩ := unravelIndex3_spec hm
    exact ⟨c, _, _, _, ⟨a1, a2, a3⟩, by rw [he]; congr 1; exact a4.symm⟩
  unfold n at h
  by_cases h1 : idx < d.n1
  · exact key 0 idx (by omega) (by simp [off])
  · by_cases h2 : idx < d.n1 + d.n2
    · exact key 1 (idx - d.n1) (by omega) (by simp [off]; omega)
    · exact key 2 (idx - (d.n1 + d.n2)) (by omega) (by simp [off]; omega)

theorem unravelIndex_inRange (d : Dims) (hk : validDegree d.k) {idx : Nat} (h : idx < d.n) :
    d.InRange (d.unravelIndex idx).1 (d.unravelIndex idx).2.1 (d.unravelIndex idx).2.2.1
      (d.unravelIndex idx).2.2.2 ∧
    d.ravelIndex (d.unravelIndex idx).1 (d.unravelIndex idx).2.1 (d.unravelIndex idx).2.2.1
      (d.unravelIndex idx).2.2.2 = idx := by
  obtain ⟨c, i, j, l, hr, rfl⟩ := d.exists_inRange hk h
  rw [d.unravelIndex_off hk hr]
  exact ⟨hr, d.ravelIndex_eq hk hr⟩

/-- Sum over the flat index of a form = sum over components and triples. -/
theorem sum_form {M : Type*} [AddCommMonoid M] (d : Dims) (hk : validDegree d.k) (f : Nat → M) :
    ∑ I ∈ range d.n, f I = ∑ c ∈ range 3, ∑ i ∈ range (d.cshape c).1, ∑ j ∈ range (d.cshape c).2.1,
      ∑ l ∈ range (d.cshape c).2.2, f (d.ravelIndex c i j l) := by
  obtain ⟨e1, e2, e3⟩ := d.size_comp hk
  have hcomp : ∀ c, ∑ i ∈ range (d.cshape c).1, ∑ j ∈ range (d.cshape c).2.1,
      ∑ l ∈ range (d.cshape c).2.2, f (d.ravelIndex c i j l)
      = ∑ m ∈ range ((d.cshape c).1 * (d.cshape c).2.1 * (d.cshape c).2.2), f (d.off c + m) := by
    intro c
    rw [sum_range_mul3 _ _ _ fun m => f (d.off c + m)]
    refine sum_congr rfl fun i hi => sum_congr rfl fun j hj => sum_congr rfl fun l hl => ?_
    rw [d.ravelIndex_eq hk ⟨mem_range.mp hi, mem_range.mp hj, mem_range.mp hl⟩]
  simp only [sum_range_succ, range_zero, sum_empty, zero_add, hcomp, ← e1, ← e2, ← e3]
  unfold n
  rw [sum_range_add, sum_range_add]
  simp [off]

end Dims
end Mrx
