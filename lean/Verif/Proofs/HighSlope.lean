import Verif.Proofs.HighOrder

/-!
# Slopes of the quasi-interpolant

The difference of two neighbouring functionals is a functional of one degree less, applied to the derivatives; so the derivative of the quasi-interpolant differs from that of the function by at
most twice the error of the coefficients times the sum of the derivative splines.
-/

namespace Mrx.Spec
open Finset Polynomial

theorem dualP_diff (τ : Nat → ℝ) (q i : Nat) : dualP τ (q + 1) (i + 1) - dualP τ (q + 1) i = C (τ (i + 1 + 1 + q) - τ (i + 1)) * dualP τ q (i + 1) := by
  have e : ∏ l ∈ range q, (C (τ (i + 1 + (l + 1))) - X) = ∏ l ∈ range q, (C (τ (i + 1 + 1 + l)) - X : ℝ[X]) :=
    prod_congr rfl fun l _ => by rw [show i + 1 + (l + 1) = i + 1 + 1 + l by omega]
  unfold dualP
  rw [prod_range_succ, prod_range_succ' (fun l => C (τ (i + 1 + l)) - X), e, C_sub, add_zero]
  ring

theorem dbf_diff (τ : Nat → ℝ) (q i : Nat) (a : ℝ) (g : Nat → ℝ) :
    dbf τ (q + 1) (i + 1) a g - dbf τ (q + 1) i a g = (τ (i + 1 + 1 + q) - τ (i + 1)) / (q + 1) * dbf τ q (i + 1) a fun k => g (k + 1) := by
  unfold dbf
  have e : ∀ k, (-1) ^ (q + 1 - k) * (derivative^[q + 1 - k] (dualP τ (q + 1) (i + 1))).eval a * g k - (-1) ^ (q + 1 - k) * (derivative^[q + 1 - k] (dualP τ (q + 1) i)).eval a * g k
      = (τ (i + 1 + 1 + q) - τ (i + 1)) * ((-1) ^ (q + 1 - k) * (derivative^[q + 1 - k] (dualP τ q (i + 1))).eval a * g k) := by
    intro k
    have := congrArg (fun P => (derivative^[q + 1 - k] P).eval a) (dualP_diff τ q i)
    beta_reduce at this
    rw [iterate_derivative_sub, iterate_derivative_C_mul, eval_sub, eval_mul, eval_C] at this
    linear_combination (-1) ^ (q + 1 - k) * g k * this
  rw [← sub_div, ← sum_sub_distrib, sum_congr rfl fun k _ => e k, ← mul_sum, sum_range_succ', Nat.sub_zero, iterate_derivative_eq_zero (by have := dualP_natDegree τ q (i + 1); omega)]
  rw [sum_congr rfl fun k _ => by rw [show q + 1 - (k + 1) = q - k by omega], Nat.factorial_succ]
  have h1 : ((q : ℝ) + 1) ≠ 0 := by positivity
  have h2 : (q.factorial : ℝ) ≠ 0 := by exact_mod_cast q.factorial_ne_zero
  push_cast
  field_simp
  simp

theorem dbf_shift (τ τ' : Nat → ℝ) (h : ∀ k, τ (k + 1) = τ' k) (q i : Nat) (a : ℝ) (g : Nat → ℝ) : dbf τ q (i + 1) a g = dbf τ' q i a g := by
  have e : dualP τ q (i + 1) = dualP τ' q i := by
    unfold dualP
    exact prod_congr rfl fun l _ => by rw [show i + 1 + 1 + l = i + 1 + l + 1 by omega, h]
  unfold dbf
  rw [e]

/-- The error of the slope at `x`. -/
theorem slope_error {q m : Nat} {D : Nat → ℝ → ℝ} {x ε B : ℝ} {τ τ' : Nat → ℝ} (hτ : ∀ k, τ (k + 1) = τ' k) {v w : Nat → ℝ} (hv : ∀ i < m, 0 ≤ v i) (hB : ∑ i ∈ range m, v i ≤ B) (hε : 0 ≤ ε)
    (hw : ∀ i < m, (τ (i + 1 + 1 + q) - τ (i + 1)) / (q + 1) * v i = w i) (hmar : ∀ y, ∑ i ∈ range m, dualPoly τ' q i y * w i = (x - y) ^ q) (c : Nat → ℝ)
    (hc : ∀ i < m, v i ≠ 0 → |c i - dbf τ (q + 1) i x (fun k => D k x)| ≤ ε ∧ |c (i + 1) - dbf τ (q + 1) (i + 1) x (fun k => D k x)| ≤ ε) :
    |D 1 x - ∑ i ∈ range m, (c (i + 1) - c i) * v i| ≤ 2 * ε * B := by
  have e : ∑ i ∈ range m, (dbf τ (q + 1) (i + 1) x (fun k => D k x) - dbf τ (q + 1) i x (fun k => D k x)) * v i = D 1 x := by
    rw [← dbf_sum hmar fun k => D (k + 1) x]
    refine sum_congr rfl fun i hi => ?_
    rw [dbf_diff, dbf_shift τ τ' hτ, ← hw i (mem_range.mp hi)]
    ring
  rw [← e, ← sum_sub_distrib]
  refine (abs_sum_le_sum_abs _ _).trans ?_
  calc _ ≤ ∑ i ∈ range m, 2 * ε * v i := by
        refine sum_le_sum fun i hi => ?_
        have hi' := mem_range.mp hi
        rw [← sub_mul, abs_mul, abs_of_nonneg (hv i hi')]
        by_cases h : v i = 0
        · rw [h, mul_zero, mul_zero]
        · obtain ⟨a, b⟩ := hc i hi' h
          refine mul_le_mul_of_nonneg_right ?_ (hv i hi')
          rw [abs_le] at a b ⊢
          constructor <;> linarith
    _ = 2 * ε * ∑ i ∈ range m, v i := by rw [mul_sum]
    _ ≤ _ := mul_le_mul_of_nonneg_left hB (by linarith)

end Mrx.Spec
