import Verif.Proofs.BSpline
import Mathlib.RingTheory.Polynomial.Vieta
import Mathlib.Algebra.Polynomial.Roots
import Mathlib.Algebra.Polynomial.Coeff
import Mathlib.Algebra.CharZero.Infinite
import Mathlib.Tactic.Ring
import Mathlib.Tactic.LinearCombination
import Mathlib.Tactic.FieldSimp

/-! # Marsden's identity: B-splines reproduce polynomials and truncated powers -/

set_option linter.unusedSectionVars false

namespace Mrx.Spec
open Finset

variable {K : Type*} [Field K] [LinearOrder K] [IsStrictOrderedRing K]

/-- The coefficient of B-spline `i` in `(x - y)^p`: `∏ (τ_{i+l} - y)`, `l = 1..p`. -/
def dualPoly (τ : Nat → K) (p i : Nat) (y : K) : K := ∏ l ∈ range p, (τ (i + 1 + l) - y)

theorem dualPoly_succ (τ : Nat → K) (p i : Nat) (y : K) : dualPoly τ (p + 1) i y = dualPoly τ p i y * (τ (i + 1 + p) - y) :=
  prod_range_succ _ _

theorem dualPoly_succ' (τ : Nat → K) (p i : Nat) (y : K) : dualPoly τ (p + 1) i y = (τ (i + 1) - y) * dualPoly τ p (i + 1) y := by
  unfold dualPoly
  rw [prod_range_succ', mul_comm]
  congr 1
  refine prod_congr rfl fun l _ => ?_
  rw [show i + 1 + (l + 1) = i + 1 + 1 + l by omega]

theorem dualPoly_shift (τ : Nat → K) (p i : Nat) (y : K) : dualPoly (fun k => τ (k + 1)) p i y = dualPoly τ p (i + 1) y := by
  unfold dualPoly
  refine prod_congr rfl fun l _ => ?_
  beta_reduce
  rw [show i + 1 + l + 1 = i + 1 + 1 + l by omega]

/-- Marsden's identity on `[τ p, τ m)`. -/
theorem marsden {τ : Nat → K} (hτ : Monotone τ) {p m : Nat} {x : K} (h1 : τ p ≤ x) (h2 : x < τ m) (y : K) :
    ∑ i ∈ range m, dualPoly τ p i y * N τ p i x = (x - y) ^ p := by
  induction p generalizing m τ with
  | zero =>
    have := N_sum hτ (p := 0) h1 h2
    simpa [dualPoly] using this
  | succ p ih =>
    obtain ⟨m, rfl⟩ : ∃ m', m = m' + 1 := by
      rcases m with _ | m
      · exact absurd (h1.trans_lt h2) (not_lt.mpr (hτ (by omega)))
      · exact ⟨m, rfl⟩
    obtain ⟨A, hA⟩ : ∃ A : Nat → K, A = fun i => (x - τ i) / (τ (i + p + 1) - τ i) * N τ p i x := ⟨_, rfl⟩
    obtain ⟨B, hB⟩ : ∃ B : Nat → K, B = fun i => (τ (i + p + 1) - x) / (τ (i + p + 1) - τ i) * N τ p i x := ⟨_, rfl⟩
    have key : ∀ i, N τ (p + 1) i x = A i + B (i + 1) := by
      intro i
      rw [hA, hB]
      simp only [N]
      rw [show i + 1 + p + 1 = i + p + 2 by omega]
    have A0 : A 0 = 0 := by
      rw [hA]; beta_reduce
      rw [N_eq_zero_of_ge hτ (by simpa using h1), mul_zero]
    have Bm : B (m + 1) = 0 := by
      rw [hB]; beta_reduce
      rw [N_eq_zero_of_lt hτ h2, mul_zero]
    have comb : ∀ i, (τ (i + 1 + p + 1) - y) * A (i + 1) + (τ (i + 1) - y) * B (i + 1) = (x - y) * N τ p (i + 1) x := by
      intro i
      rw [hA, hB]; beta_reduce
      by_cases hN : N τ p (i + 1) x = 0
      · simp [hN]
      · obtain ⟨a, b⟩ := N_support hτ hN
        have : τ (i + 1 + p + 1) - τ (i + 1) ≠ 0 := by linarith [a.trans_lt b]
        field_simp
        ring
    have e1 : ∑ i ∈ range (m + 1), dualPoly τ (p + 1) i y * N τ (p + 1) i x
        = ∑ i ∈ range (m + 1), dualPoly τ (p + 1) i y * A i + ∑ i ∈ range (m + 1), dualPoly τ (p + 1) i y * B (i + 1) := by
      rw [← sum_add_distrib]
      exact sum_congr rfl fun i _ => by rw [key]; ring
    rw [e1, sum_range_succ' (fun i => dualPoly τ (p + 1) i y * A i), A0, mul_zero, add_zero,
      sum_range_succ (fun i => dualPoly τ (p + 1) i y * B (i + 1)), Bm, mul_zero, add_zero, ← sum_add_distrib]
    have e2 : ∀ i ∈ range m, dualPoly τ (p + 1) (i + 1) y * A (i + 1) + dualPoly τ (p + 1) i y * B (i + 1)
        = (x - y) * (dualPoly (fun k => τ (k + 1)) p i y * N (fun k => τ (k + 1)) p i x) := by
      intro i _
      rw [dualPoly_succ τ p (i + 1), dualPoly_succ' τ p i, dualPoly_shift, N_shift]
      have := comb i
      rw [show i + 1 + p + 1 = i + 1 + 1 + p by omega] at this
      linear_combination dualPoly τ p (i + 1) y * this
    rw [sum_congr rfl e2, ← mul_sum, ih (τ := fun k => τ (k + 1)) (fun a b hab => hτ (by omega)) (m := m) h1 h2, pow_succ']

/-- Truncated powers at a knot. -/
theorem marsden_truncated {τ : Nat → K} (hτ : Monotone τ) {p m : Nat} {x : K} (h1 : τ p ≤ x) (h2 : x < τ m) (j : Nat) :
    ∑ i ∈ range m, (if j ≤ i then dualPoly τ p i (τ j) else 0) * N τ p i x = if τ j ≤ x then (x - τ j) ^ p else 0 := by
  split_ifs with h
  · rw [← marsden hτ h1 h2 (τ j)]
    refine sum_congr rfl fun i _ => ?_
    split_ifs with hij
    · rfl
    · rw [zero_mul]
      rcases Nat.lt_or_ge (i + p) j with h' | h'
      · rw [N_eq_zero_of_ge hτ ((hτ (by omega : i + p + 1 ≤ j)).trans h), mul_zero]
      · have : dualPoly τ p i (τ j) = 0 := by
          refine prod_eq_zero (i := j - i - 1) (mem_range.mpr (by omega)) ?_
          rw [show i + 1 + (j - i - 1) = j by omega, sub_self]
        rw [this, zero_mul]
  · refine sum_eq_zero fun i _ => ?_
    split_ifs with hij
    · rw [N_eq_zero_of_lt hτ ((not_le.mp h).trans_le (hτ hij)), mul_zero]
    · rw [zero_mul]

/-- The `k`-th elementary symmetric function of the knots `τ_{i+1}, ..., τ_{i+p}`. -/
def knotSym (τ : Nat → K) (p i k : Nat) : K := ∑ t ∈ (range p).powersetCard k, ∏ l ∈ t, τ (i + 1 + l)

theorem dualPoly_poly (τ : Nat → K) (p i : Nat) (y : K) :
    (-1) ^ p * dualPoly τ p i y = (∏ l ∈ range p, (Polynomial.X + Polynomial.C (-τ (i + 1 + l)))).eval y := by
  unfold dualPoly
  rw [Polynomial.eval_prod]
  simp only [Polynomial.eval_add, Polynomial.eval_X, Polynomial.eval_C]
  rw [← card_range p, ← prod_const, card_range, ← prod_mul_distrib]
  exact prod_congr rfl fun l _ => by ring

theorem dualPoly_coeff (τ : Nat → K) (p i k : Nat) (hk : k ≤ p) :
    (∏ l ∈ range p, (Polynomial.X + Polynomial.C (-τ (i + 1 + l)))).coeff (p - k) = (-1) ^ k * knotSym τ p i k := by
  rw [Finset.prod_X_add_C_coeff _ _ (by rw [card_range]; omega), card_range, show p - (p - k) = k by omega]
  unfold knotSym
  rw [mul_sum]
  refine sum_congr rfl fun t ht => ?_
  rw [← (mem_powersetCard.mp ht).2, ← prod_const, ← prod_mul_distrib]
  exact prod_congr rfl fun l _ => by ring

/-- From the identity in `y` to the coefficients: if `∑ dualPoly_i(y) a_i = (x - y)^p` for all `y` then `∑ sym_k a_i = C(p,k) x^k`. -/
theorem sym_of_marsden {τ : Nat → K} {p m : Nat} {x : K} {a : Nat → K}
    (h : ∀ y, ∑ i ∈ range m, dualPoly τ p i y * a i = (x - y) ^ p) (k : Nat) (hk : k ≤ p) :
    ∑ i ∈ range m, knotSym τ p i k * a i = (p.choose k : K) * x ^ k := by
  have e : ∑ i ∈ range m, Polynomial.C (a i) * (∏ l ∈ range p, (Polynomial.X + Polynomial.C (-τ (i + 1 + l)))) = (Polynomial.X + Polynomial.C (-x)) ^ p := by
    haveI : CharZero K := inferInstance
    haveI : Infinite K := inferInstance
    refine Polynomial.funext fun y => ?_
    rw [Polynomial.eval_finsetSum, Polynomial.eval_pow, Polynomial.eval_add, Polynomial.eval_X, Polynomial.eval_C]
    have : (y + -x) ^ p = (-1) ^ p * (x - y) ^ p := by rw [← mul_pow]; congr 1; ring
    rw [this, ← h y, mul_sum]
    refine sum_congr rfl fun i _ => ?_
    rw [Polynomial.eval_mul, Polynomial.eval_C, ← dualPoly_poly]
    ring
  have e2 := congrArg (fun P => Polynomial.coeff P (p - k)) e
  simp only [Polynomial.finsetSum_coeff, Polynomial.coeff_C_mul, dualPoly_coeff _ _ _ _ hk] at e2
  rw [Polynomial.coeff_X_add_C_pow, show p - (p - k) = k by omega, Nat.choose_symm hk, neg_pow x] at e2
  have : ((-1 : K) ^ k) ≠ 0 := pow_ne_zero _ (by norm_num)
  refine mul_left_cancel₀ this ?_
  rw [mul_sum]
  calc ∑ i ∈ range m, (-1) ^ k * (knotSym τ p i k * a i) = ∑ i ∈ range m, a i * ((-1) ^ k * knotSym τ p i k) := sum_congr rfl fun i _ => by ring
    _ = _ := by rw [e2]; ring

end Mrx.Spec
