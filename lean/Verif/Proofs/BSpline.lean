import Verif.Spec.BSpline
import Mathlib.Algebra.BigOperators.Fin
import Mathlib.Algebra.BigOperators.Intervals
import Mathlib.Algebra.Order.BigOperators.Group.Finset
import Mathlib.Tactic.Linarith
import Mathlib.Tactic.FieldSimp
import Mathlib.Tactic.Ring
import Mathlib.Tactic.Positivity

/-! # Facts about the textbook B-spline recursion -/

set_option linter.unusedSectionVars false

namespace Mrx.Spec

open Finset

variable {K : Type*} [Field K] [LinearOrder K] [IsStrictOrderedRing K]

omit [IsStrictOrderedRing K] in
/-- Values depend only on the knots `τ i, …, τ (i+p+1)`; index shift. -/
theorem N_congr {τ σ : Nat → K} {p i j : Nat} {x : K}
    (h : ∀ k, k ≤ p + 1 → τ (i + k) = σ (j + k)) : N τ p i x = N σ p j x := by
  induction p generalizing i j with
  | zero =>
    have h0 := h 0 (by omega); have h1 := h 1 (by omega)
    simp only [Nat.add_zero] at h0
    simp [N, h0, h1]
  | succ p ih =>
    have h0 := h 0 (by omega); have h1 := h 1 (by omega)
    have h2 := h (p+1) (by omega); have h3 := h (p+2) (by omega)
    simp only [Nat.add_zero, ← Nat.add_assoc] at h0 h1 h2 h3
    simp only [N]
    rw [ih (i := i) (j := j) (fun k hk => h k (by omega)),
      ih (i := i+1) (j := j+1) (fun k hk => by
        have := h (k+1) (by omega)
        rwa [show i + 1 + k = i + (k+1) by omega, show j + 1 + k = j + (k+1) by omega]),
      h0, h1, h2, h3]

omit [IsStrictOrderedRing K] in
theorem N_shift (τ : Nat → K) (p i : Nat) (x : K) :
    N (fun k => τ (k + 1)) p i x = N τ p (i + 1) x :=
  N_congr fun k _ => by congr 1; omega

/-- Local support. -/
theorem N_support {τ : Nat → K} (hτ : Monotone τ) {p i : Nat} {x : K} (h : N τ p i x ≠ 0) :
    τ i ≤ x ∧ x < τ (i + p + 1) := by
  induction p generalizing i with
  | zero =>
    simp only [N] at h
    by_contra hc
    exact h (if_neg hc)
  | succ p ih =>
    simp only [N] at h
    by_cases h1 : N τ p i x = 0
    · by_cases h2 : N τ p (i+1) x = 0
      · simp [h1, h2] at h
      · obtain ⟨a, b⟩ := ih h2
        exact ⟨(hτ (by omega)).trans a, by rwa [show i + (p+1) + 1 = i + 1 + p + 1 by omega]⟩
    · obtain ⟨a, b⟩ := ih h1
      exact ⟨a, b.trans_le (hτ (by omega))⟩

theorem N_eq_zero_of_lt {τ : Nat → K} (hτ : Monotone τ) {p i : Nat} {x : K} (h : x < τ i) :
    N τ p i x = 0 := by
  by_contra hc; exact absurd (N_support hτ hc).1 (not_le.mpr h)

theorem N_eq_zero_of_ge {τ : Nat → K} (hτ : Monotone τ) {p i : Nat} {x : K}
    (h : τ (i + p + 1) ≤ x) : N τ p i x = 0 := by
  by_contra hc; exact absurd (N_support hτ hc).2 (not_lt.mpr h)

theorem N_nonneg {τ : Nat → K} (hτ : Monotone τ) (p i : Nat) (x : K) : 0 ≤ N τ p i x := by
  induction p generalizing i with
  | zero => simp only [N]; split <;> simp
  | succ p ih =>
    simp only [N]
    apply add_nonneg
    · by_cases h1 : N τ p i x = 0
      · simp [h1]
      · obtain ⟨a, b⟩ := N_support hτ h1
        exact mul_nonneg (div_nonneg (by linarith) (by linarith)) (ih i)
    · by_cases h1 : N τ p (i+1) x = 0
      · simp [h1]
      · obtain ⟨a, b⟩ := N_support hτ h1
        rw [show i + 1 + p + 1 = i + p + 2 by omega] at b
        exact mul_nonneg (div_nonneg (by linarith) (by linarith)) (ih (i+1))

/-- Partition of unity on `[τ p, τ m)` for the first `m` splines. -/
theorem N_sum {τ : Nat → K} (hτ : Monotone τ) {p m : Nat} {x : K}
    (h1 : τ p ≤ x) (h2 : x < τ m) : ∑ i ∈ range m, N τ p i x = 1 := by
  induction p generalizing m τ with
  | zero =>
    have key : ∀ i, N τ 0 i x = (if τ i ≤ x then (1:K) else 0) - (if τ (i+1) ≤ x then 1 else 0) := by
      intro i
      simp only [N]
      have := hτ (Nat.le_succ i)
      simp only [Nat.succ_eq_add_one] at this
      by_cases a : τ i ≤ x <;> by_cases b : τ (i+1) ≤ x
      · simp [a, b]
      · simp [a, b, not_le.mp b]
      · exact absurd (this.trans b) a
      · simp [a, b]
    rw [sum_congr rfl fun i _ => key i, sum_range_sub']
    simp [h1, not_le.mpr h2]
  | succ p ih =>
    obtain ⟨m, rfl⟩ : ∃ m', m = m' + 1 := by
      rcases m with _ | m
      · exact absurd (h1.trans_lt h2) (not_lt.mpr (hτ (by omega)))
      · exact ⟨m, rfl⟩
    let w : Nat → K := fun i => (x - τ i) / (τ (i+p+1) - τ i) * N τ p i x
    have key : ∀ i, N τ (p+1) i x = w i - w (i+1) + N τ p (i+1) x := by
      intro i
      simp only [N, w]
      rw [show i + 1 + p + 1 = i + p + 2 by omega]
      by_cases hN : N τ p (i+1) x = 0
      · simp [hN]
      · obtain ⟨a, b⟩ := N_support hτ hN
        rw [show i + 1 + p + 1 = i + p + 2 by omega] at b
        have : τ (i+p+2) - τ (i+1) ≠ 0 := by linarith [a.trans_lt b]
        field_simp
        ring
    rw [sum_congr rfl fun i _ => key i, sum_add_distrib, sum_range_sub']
    have w0 : w 0 = 0 := by
      simp only [w]
      rw [N_eq_zero_of_ge hτ (by simpa using h1), mul_zero]
    have wm : w (m+1) = 0 := by
      simp only [w]
      rw [N_eq_zero_of_lt hτ h2, mul_zero]
    have last : N τ p (m+1) x = 0 := N_eq_zero_of_lt hτ h2
    rw [w0, wm, sum_range_succ, last]
    have := ih (τ := fun k => τ (k+1)) (fun a b hab => hτ (by omega)) (m := m) h1 h2
    simp only [N_shift] at this
    rw [this]; simp

/-- A spline vanishes at its first knot if the multiplicity of that knot is at most the degree. -/
theorem N_left_zero {τ : Nat → K} (hτ : Monotone τ) {p i : Nat} {x : K} (h : x ≤ τ i)
    (h' : x < τ (i + p)) : N τ p i x = 0 := by
  induction p generalizing i with
  | zero => exact N_eq_zero_of_lt hτ h'
  | succ p ih =>
    simp only [N]
    rw [ih (i := i+1) (h.trans (hτ (by omega))) (by rwa [show i + 1 + p = i + (p+1) by omega])]
    rcases h.lt_or_eq with h | h
    · rw [N_eq_zero_of_lt hτ h]; simp
    · rw [h]; simp

/-- At most `p+1` splines are non-zero at a point. -/
theorem N_card {τ : Nat → K} (hτ : Monotone τ) (p : Nat) (x : K) (m : Nat) :
    ((range m).filter fun i => N τ p i x ≠ 0).card ≤ p + 1 := by
  by_cases hne : ((range m).filter fun i => N τ p i x ≠ 0).Nonempty
  · let k := ((range m).filter fun i => N τ p i x ≠ 0).max' hne
    have hk := (mem_filter.mp (max'_mem _ hne)).2
    have : ((range m).filter fun i => N τ p i x ≠ 0) ⊆ Finset.Icc (k - p) k := by
      intro i hi
      have hle : i ≤ k := le_max' _ _ hi
      have hi' := (mem_filter.mp hi).2
      rw [Finset.mem_Icc]
      refine ⟨?_, hle⟩
      by_contra hlt
      have h1 := (N_support hτ hi').2
      have h2 := (N_support hτ hk).1
      exact absurd (h1.trans_le (hτ (show i + p + 1 ≤ k by omega))) (not_lt.mpr h2)
    calc _ ≤ (Finset.Icc (k-p) k).card := card_le_card this
      _ ≤ p + 1 := by rw [Nat.card_Icc]; omega
  · rw [not_nonempty_iff_eq_empty.mp hne]; simp

end Mrx.Spec
