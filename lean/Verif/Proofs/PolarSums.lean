import Verif.Model.Extraction
import Verif.Proofs.FormEval

/-! # Column sums of the building blocks of the polar extraction operator -/

set_option linter.unusedSectionVars false

namespace Mrx
open Finset Jax

theorem flat_inj {i j l i' j' l' t z : Nat} (hj : j < t) (hl : l < z) (hj' : j' < t) (hl' : l' < z)
    (h : (i * t + j) * z + l = (i' * t + j') * z + l') : i = i' ∧ j = j' ∧ l = l' := by
  have h1 := unravelIndex3_flat (a := max i i' + 1) (by omega : i < max i i' + 1) hj hl
  have h2 := unravelIndex3_flat (a := max i i' + 1) (by omega : i' < max i i' + 1) hj' hl'
  rw [h, h2] at h1
  simp only [Prod.mk.injEq] at h1
  omega

theorem unravelIndex2_flat {p l a z : Nat} (hp : p < a) (hl : l < z) :
    unravelIndex2 (p * z + l) a z = (p, l) := by
  unfold unravelIndex2
  have hz : 0 < z := by omega
  have : p * z + l < a * z := by
    calc p * z + l < p * z + z := by omega
      _ = (p + 1) * z := by ring
      _ ≤ a * z := Nat.mul_le_mul_right z hp
  rw [Nat.min_eq_left (by omega)]
  have e1 : (p * z + l) / z = p := by
    rw [Nat.mul_comm p z, Nat.mul_add_div hz, Nat.div_eq_of_lt hl, Nat.add_zero]
  have e2 : (p * z + l) % z = l := by
    rw [Nat.mul_comm p z, Nat.mul_add_mod, Nat.mod_eq_of_lt hl]
  simp only [e1, e2, Nat.mod_eq_of_lt hp]

theorem sum_range_mul2 {M : Type*} [AddCommMonoid M] (a c : Nat) (f : Nat → M) :
    ∑ I ∈ range (a * c), f I = ∑ i ∈ range a, ∑ k ∈ range c, f (i * c + k) := by
  have := sum_range_mul3 1 a c f
  simpa using this

theorem sum_single3 {a t z : Nat} (i0 j0 l0 : Nat) (g : Nat → Nat → Nat → ℝ) :
    ∑ i ∈ range a, ∑ j ∈ range t, ∑ l ∈ range z, (if i = i0 ∧ j = j0 ∧ l = l0 then (1:ℝ) else 0) * g i j l
      = if i0 < a ∧ j0 < t ∧ l0 < z then g i0 j0 l0 else 0 := by
  have h1 : ∀ i j, ∑ l ∈ range z, (if i = i0 ∧ j = j0 ∧ l = l0 then (1:ℝ) else 0) * g i j l
      = if i = i0 ∧ j = j0 ∧ l0 < z then g i0 j0 l0 else 0 := by
    intro i j
    by_cases h : i = i0 ∧ j = j0
    · obtain ⟨rfl, rfl⟩ := h
      simp [ite_mul]
    · rw [if_neg (fun hh => h ⟨hh.1, hh.2.1⟩)]
      apply sum_eq_zero; intro l _
      rw [if_neg (fun hh => h ⟨hh.1, hh.2.1⟩), zero_mul]
  have h2 : ∀ i, ∑ j ∈ range t, (if i = i0 ∧ j = j0 ∧ l0 < z then g i0 j0 l0 else 0)
      = if i = i0 ∧ j0 < t ∧ l0 < z then g i0 j0 l0 else 0 := by
    intro i
    by_cases h : i = i0 ∧ l0 < z
    · obtain ⟨rfl, h2⟩ := h
      simp [h2]
    · rw [if_neg (fun hh => h ⟨hh.1, hh.2.2⟩)]
      apply sum_eq_zero; intro l _
      rw [if_neg (fun hh => h ⟨hh.1, hh.2.2⟩)]
  simp only [h1, h2]
  by_cases h : j0 < t ∧ l0 < z
  · obtain ⟨h1, h2⟩ := h
    simp [h1, h2]
  · rw [if_neg (fun hh => h hh.2)]
    apply sum_eq_zero; intro l _
    rw [if_neg (fun hh => h hh.2)]

namespace PolarOp

variable (P : PolarOp) {nr t z i j l : Nat} (hi : i < nr) (hj : j < t) (hl : l < z) (U : Nat → ℝ)
include hi hj hl

theorem sum_innerZeroform :
    ∑ r ∈ range (3 * z), P.innerZeroform r ((i * t + j) * z + l) nr t z * U r
      = if i < 2 then ∑ p ∈ range 3, P.ξ.get p i j * U (p * z + l) else 0 := by
  rw [sum_range_mul2]
  have : ∀ p ∈ range 3, ∑ m ∈ range z, P.innerZeroform (p * z + m) ((i * t + j) * z + l) nr t z * U (p * z + m)
      = if i < 2 then P.ξ.get p i j * U (p * z + l) else 0 := by
    intro p hp
    rw [sum_eq_single l]
    · unfold innerZeroform
      rw [unravelIndex2_flat (mem_range.mp hp) hl, unravelIndex3_flat hi hj hl]
      split <;> simp_all
    · intro m hm hne
      unfold innerZeroform
      rw [unravelIndex2_flat (mem_range.mp hp) (mem_range.mp hm), unravelIndex3_flat hi hj hl]
      simp [Ne.symm hne]
    · intro h; exact absurd (mem_range.mpr hl) h
  rw [sum_congr rfl this]
  split <;> simp

theorem sum_innerOneformR :
    ∑ r ∈ range (2 * z), P.innerOneformR r ((i * t + j) * z + l) nr t z * U r
      = if i = 0 then ∑ p ∈ range 2, (P.ξ.get (p + 1) 1 j - P.ξ.get (p + 1) 0 j) * U (p * z + l) else 0 := by
  rw [sum_range_mul2]
  have : ∀ p ∈ range 2, ∑ m ∈ range z, P.innerOneformR (p * z + m) ((i * t + j) * z + l) nr t z * U (p * z + m)
      = if i = 0 then (P.ξ.get (p + 1) 1 j - P.ξ.get (p + 1) 0 j) * U (p * z + l) else 0 := by
    intro p hp
    rw [sum_eq_single l]
    · unfold innerOneformR
      rw [unravelIndex2_flat (mem_range.mp hp) hl, unravelIndex3_flat hi hj hl]
      split <;> simp_all
    · intro m hm hne
      unfold innerOneformR
      rw [unravelIndex2_flat (mem_range.mp hp) (mem_range.mp hm), unravelIndex3_flat hi hj hl]
      simp [Ne.symm hne]
    · intro h; exact absurd (mem_range.mpr hl) h
  rw [sum_congr rfl this]
  split <;> simp

theorem sum_innerOneformT :
    ∑ r ∈ range (2 * z), P.innerOneformT r ((i * t + j) * z + l) nr t z * U r
      = if i = 1 then ∑ p ∈ range 2, (P.ξ.get (p + 1) 1 ((j + 1) % t) - P.ξ.get (p + 1) 1 j) * U (p * z + l)
        else 0 := by
  rw [sum_range_mul2]
  have : ∀ p ∈ range 2, ∑ m ∈ range z, P.innerOneformT (p * z + m) ((i * t + j) * z + l) nr t z * U (p * z + m)
      = if i = 1 then (P.ξ.get (p + 1) 1 ((j + 1) % t) - P.ξ.get (p + 1) 1 j) * U (p * z + l) else 0 := by
    intro p hp
    rw [sum_eq_single l]
    · unfold innerOneformT
      rw [unravelIndex2_flat (mem_range.mp hp) hl, unravelIndex3_flat hi hj hl]
      split <;> simp_all
    · intro m hm hne
      unfold innerOneformT
      rw [unravelIndex2_flat (mem_range.mp hp) (mem_range.mp hm), unravelIndex3_flat hi hj hl]
      simp [Ne.symm hne]
    · intro h; exact absurd (mem_range.mpr hl) h
  rw [sum_congr rfl this]
  split <;> simp

theorem sum_outerZeroform (ho : 2 + P.o ≤ nr) :
    ∑ r ∈ range ((nr - 2 - P.o) * t * z), P.outerZeroform r ((i * t + j) * z + l) nr t z * U r
      = if 2 ≤ i ∧ i < nr - P.o then U (((i - 2) * t + j) * z + l) else 0 := by
  rw [sum_range_mul3]
  have hrow : ∀ i' ∈ range (nr - 2 - P.o), ∀ j' ∈ range t, ∀ l' ∈ range z,
      P.outerZeroform ((i' * t + j') * z + l') ((i * t + j) * z + l) nr t z * U ((i' * t + j') * z + l')
      = if 2 ≤ i then (if i' = i - 2 ∧ j' = j ∧ l' = l then (1:ℝ) else 0) * U ((i' * t + j') * z + l') else 0 := by
    intro i' hi' j' hj' l' hl'
    rw [mem_range] at hi' hj' hl'
    unfold outerZeroform
    rw [unravelIndex3_flat (by omega) hj' hl']
    simp only []
    rw [ravelMultiIndex3_eq (by omega) hj' hl']
    have : (i * t + j) * z + l = ((i' + 2) * t + j') * z + l' ↔ (2 ≤ i ∧ i' = i - 2 ∧ j' = j ∧ l' = l) := by
      constructor
      · intro h; have := flat_inj hj hl hj' hl' h; omega
      · rintro ⟨h2, rfl, rfl, rfl⟩; rw [Nat.sub_add_cancel h2]
    have hne : (if P.o = 1 then (if i' ≠ nr - 1 then (1:ℝ) else 0) else 1) = 1 := by
      split
      · rw [if_pos (by omega)]
      · rfl
    simp only [this, hne, mul_one]
    by_cases h2 : 2 ≤ i <;> simp [h2]
  rw [sum_congr rfl fun i' hi' => sum_congr rfl fun j' hj' => sum_congr rfl fun l' hl' => hrow i' hi' j' hj' l' hl']
  by_cases h2 : 2 ≤ i
  · simp only [h2, if_true, true_and]
    rw [sum_single3 (i - 2) j l fun i' j' l' => U ((i' * t + j') * z + l')]
    have : (i - 2 < nr - 2 - P.o ∧ j < t ∧ l < z) ↔ i < nr - P.o := by omega
    simp only [this]
  · simp [h2]

theorem sum_threeform {d : Nat} (hd : d ≤ nr) :
    ∑ r ∈ range ((d - 1) * t * z), threeform r ((i * t + j) * z + l) nr t z * U r
      = if 1 ≤ i ∧ i < d then U (((i - 1) * t + j) * z + l) else 0 := by
  rw [sum_range_mul3]
  have hrow : ∀ i' ∈ range (d - 1), ∀ j' ∈ range t, ∀ l' ∈ range z,
      threeform ((i' * t + j') * z + l') ((i * t + j) * z + l) nr t z * U ((i' * t + j') * z + l')
      = if 1 ≤ i then (if i' = i - 1 ∧ j' = j ∧ l' = l then (1:ℝ) else 0) * U ((i' * t + j') * z + l') else 0 := by
    intro i' hi' j' hj' l' hl'
    rw [mem_range] at hi' hj' hl'
    unfold threeform
    rw [unravelIndex3_flat (by omega) hj' hl']
    simp only []
    rw [ravelMultiIndex3_eq (by omega) hj' hl']
    have : (i * t + j) * z + l = ((i' + 1) * t + j') * z + l' ↔ (1 ≤ i ∧ i' = i - 1 ∧ j' = j ∧ l' = l) := by
      constructor
      · intro h; have := flat_inj hj hl hj' hl' h; omega
      · rintro ⟨h2, rfl, rfl, rfl⟩; rw [Nat.sub_add_cancel h2]
    simp only [this]
    by_cases h2 : 1 ≤ i <;> simp [h2]
  rw [sum_congr rfl fun i' hi' => sum_congr rfl fun j' hj' => sum_congr rfl fun l' hl' => hrow i' hi' j' hj' l' hl']
  by_cases h2 : 1 ≤ i
  · simp only [h2, if_true, true_and]
    rw [sum_single3 (i - 1) j l fun i' j' l' => U ((i' * t + j') * z + l')]
    have : (i - 1 < d - 1 ∧ j < t ∧ l < z) ↔ i < d := by omega
    simp only [this]
  · simp [h2]

end PolarOp
end Mrx
