import Verif.Jax
import Mathlib.Algebra.BigOperators.Fin
import Mathlib.Algebra.Order.BigOperators.Group.Finset
import Mathlib.Tactic.Ring
import Mathlib.Tactic.Linarith

/-! # Mixed radix index arithmetic -/

namespace Mrx.Jax

open Finset

theorem flat_lt {i j k a b c : Nat} (hi : i < a) (hj : j < b) (hk : k < c) :
    (i * b + j) * c + k < a * b * c := by
  have h1 : i * b + j + 1 ≤ a * b := by
    calc i * b + j + 1 ≤ i * b + b := by omega
      _ = (i + 1) * b := by ring
      _ ≤ a * b := Nat.mul_le_mul_right b hi
  calc (i * b + j) * c + k < (i * b + j) * c + c := by omega
    _ = (i * b + j + 1) * c := by ring
    _ ≤ a * b * c := Nat.mul_le_mul_right c h1

theorem unravelIndex3_flat {i j k a b c : Nat} (hi : i < a) (hj : j < b) (hk : k < c) :
    unravelIndex3 ((i * b + j) * c + k) a b c = (i, j, k) := by
  have hlt := flat_lt hi hj hk
  have hc : 0 < c := by omega
  have hb : 0 < b := by omega
  unfold unravelIndex3
  rw [Nat.min_eq_left (by omega)]
  simp only []
  have e1 : ((i * b + j) * c + k) / c = i * b + j := by
    rw [Nat.mul_comm (i * b + j) c, Nat.mul_add_div hc, Nat.div_eq_of_lt hk, Nat.add_zero]
  have e2 : (i * b + j) / b = i := by
    rw [Nat.mul_comm i b, Nat.mul_add_div hb, Nat.div_eq_of_lt hj, Nat.add_zero]
  have e3 : ((i * b + j) * c + k) % c = k := by
    rw [Nat.mul_comm (i * b + j) c, Nat.mul_add_mod, Nat.mod_eq_of_lt hk]
  have e4 : (i * b + j) % b = j := by
    rw [Nat.mul_comm i b, Nat.mul_add_mod, Nat.mod_eq_of_lt hj]
  rw [e1, e2, e3, e4, Nat.mod_eq_of_lt hi]

theorem ravelMultiIndex3_eq {i j k a b c : Nat} (hi : i < a) (hj : j < b) (hk : k < c) :
    ravelMultiIndex3 i j k a b c = (i * b + j) * c + k := by
  unfold ravelMultiIndex3
  rw [Nat.min_eq_left (by omega), Nat.min_eq_left (by omega), Nat.min_eq_left (by omega)]

theorem unravelIndex3_spec {I a b c : Nat} (h : I < a * b * c) :
    (unravelIndex3 I a b c).1 < a ∧ (unravelIndex3 I a b c).2.1 < b ∧ (unravelIndex3 I a b c).2.2 < c ∧
    ((unravelIndex3 I a b c).1 * b + (unravelIndex3 I a b c).2.1) * c + (unravelIndex3 I a b c).2.2 = I := by
  have habc : 0 < a * b * c := by omega
  have ha : 0 < a := Nat.pos_of_mul_pos_right (Nat.pos_of_mul_pos_right habc)
  have hb : 0 < b := Nat.pos_of_mul_pos_left (Nat.pos_of_mul_pos_right habc)
  have hc : 0 < c := Nat.pos_of_mul_pos_left habc
  unfold unravelIndex3
  rw [Nat.min_eq_left (by omega)]
  refine ⟨Nat.mod_lt _ ha, Nat.mod_lt _ hb, Nat.mod_lt _ hc, ?_⟩
  simp only []
  have h1 : I / c / b < a := by
    rw [Nat.div_div_eq_div_mul, Nat.div_lt_iff_lt_mul (by positivity)]
    calc I < a * b * c := h
      _ = a * (c * b) := by ring
  rw [Nat.mod_eq_of_lt h1, Nat.mul_comm (I / c / b) b, Nat.div_add_mod, Nat.mul_comm (I / c) c,
    Nat.div_add_mod]

/-- Sum over flat indices = triple sum. -/
theorem sum_range_mul3 {M : Type*} [AddCommMonoid M] (a b c : Nat) (f : Nat → M) :
    ∑ I ∈ range (a * b * c), f I
      = ∑ i ∈ range a, ∑ j ∈ range b, ∑ k ∈ range c, f ((i * b + j) * c + k) := by
  rw [← sum_product', ← sum_product']
  refine sum_bij' (fun I _ => (((unravelIndex3 I a b c).1, (unravelIndex3 I a b c).2.1),
      (unravelIndex3 I a b c).2.2)) (fun t _ => (t.1.1 * b + t.1.2) * c + t.2) ?_ ?_ ?_ ?_ ?_
  · intro I hI
    obtain ⟨h1, h2, h3, _⟩ := unravelIndex3_spec (mem_range.mp hI)
    simp [h1, h2, h3]
  · rintro ⟨⟨i, j⟩, k⟩ h
    simp only [mem_product, mem_range] at h
    exact mem_range.mpr (flat_lt h.1.1 h.1.2 h.2)
  · intro I hI
    exact (unravelIndex3_spec (mem_range.mp hI)).2.2.2
  · rintro ⟨⟨i, j⟩, k⟩ h
    simp only [mem_product, mem_range] at h
    simp only [unravelIndex3_flat h.1.1 h.1.2 h.2]
  · intro I hI
    simp only [(unravelIndex3_spec (mem_range.mp hI)).2.2.2]

end Mrx.Jax
