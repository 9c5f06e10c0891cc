import Verif.Proofs.BSplineDeriv
import Mathlib.Algebra.Polynomial.Roots
import Mathlib.Analysis.Calculus.Deriv.Add

/-! # Local linear independence of B-splines -/

set_option linter.unusedSectionVars false

namespace Mrx
open Finset Spec Polynomial

/-- On one knot interval a B-spline of degree `p` is a polynomial of degree at most `p`. -/
theorem N_poly {τ : Nat → ℝ} (hτ : Monotone τ) (e p i : Nat) :
    ∃ P : ℝ[X], P.natDegree ≤ p ∧ ∀ x, τ e ≤ x → x < τ (e + 1) → N τ p i x = P.eval x := by
  induction p generalizing i with
  | zero =>
    by_cases h : i = e
    · subst h
      exact ⟨1, by simp, fun x h1 h2 => by simp [N, h1, h2]⟩
    · refine ⟨0, by simp, fun x h1 h2 => ?_⟩
      simp only [N, eval_zero, ite_eq_right_iff]
      rintro ⟨h3, h4⟩
      exfalso
      rcases Nat.lt_or_gt_of_ne h with h | h
      · exact absurd (hτ (show i + 1 ≤ e by omega)) (by linarith)
      · exact absurd (hτ (show e + 1 ≤ i by omega)) (by linarith)
  | succ p ih =>
    obtain ⟨P, hP, hPe⟩ := ih i
    obtain ⟨Q, hQ, hQe⟩ := ih (i + 1)
    refine ⟨C (1 / (τ (i + p + 1) - τ i)) * ((X - C (τ i)) * P)
      + C (1 / (τ (i + p + 2) - τ (i + 1))) * ((C (τ (i + p + 2)) - X) * Q), ?_, fun x h1 h2 => ?_⟩
    · refine (natDegree_add_le _ _).trans (max_le ?_ ?_)
      · refine (natDegree_C_mul_le _ _).trans (natDegree_mul_le.trans ?_)
        have := natDegree_X_sub_C (τ i)
        omega
      · refine (natDegree_C_mul_le _ _).trans (natDegree_mul_le.trans ?_)
        have h : (C (τ (i + p + 2)) - X : ℝ[X]).natDegree ≤ 1 := by
          refine (natDegree_sub_le _ _).trans (max_le (by simp) (by simp))
        omega
    · simp only [N, hPe x h1 h2, hQe x h1 h2, eval_add, eval_mul, eval_C, eval_sub, eval_X]
      ring

/-- Local linear independence: a combination of B-splines vanishing on a non-empty knot interval has zero
coefficients for all splines that do not vanish on that interval. -/
theorem N_local_indep {τ : Nat → ℝ} (hτ : Monotone τ) {e m : Nat} (hem : e < m) (hne : τ e < τ (e + 1)) (p : Nat)
    (hp : p ≤ e) (c : Nat → ℝ) (h : ∀ x, τ e < x → x < τ (e + 1) → ∑ i ∈ range m, c i * N τ p i x = 0) :
    ∀ i, e - p ≤ i → i ≤ e → c i = 0 := by
  have knot : ∀ x, τ e < x → x < τ (e + 1) → ∀ k, τ k ≠ x := by
    intro x h1 h2 k hk
    rcases Nat.lt_or_ge e k with h | h
    · exact absurd (hτ (show e + 1 ≤ k by omega)) (by linarith)
    · exact absurd (hτ h) (by linarith)
  induction p generalizing c m with
  | zero =>
    intro i h1 h2
    obtain rfl : i = e := by omega
    have hx := h ((τ i + τ (i + 1)) / 2) (by linarith) (by linarith)
    rw [Finset.sum_eq_single i] at hx
    · simp only [N] at hx
      rw [if_pos ⟨by linarith, by linarith⟩, mul_one] at hx
      exact hx
    · intro b _ hb
      simp only [N]
      rw [if_neg, mul_zero]
      rintro ⟨h3, h4⟩
      rcases Nat.lt_or_gt_of_ne hb with h | h
      · exact absurd (hτ (show b + 1 ≤ i by omega)) (by linarith)
      · exact absurd (hτ (show i + 1 ≤ b by omega)) (by linarith)
    · intro hc; exact absurd (mem_range.mpr hem) hc
  | succ p ih =>
    -- coefficients of the derivative
    let g : Nat → ℝ := fun i => ((p : ℝ) + 1) / (τ (i + p + 1) - τ i)
      * ((if i < m then c i else 0) - (if 0 < i then c (i - 1) else 0))
    have hder : ∀ x, τ e < x → x < τ (e + 1) → ∑ i ∈ range (m + 1), g i * N τ p i x = 0 := by
      intro x h1 h2
      have hd : HasDerivAt (fun y => ∑ i ∈ range m, c i * N τ (p + 1) i y)
          (∑ i ∈ range m, c i * (((p : ℝ) + 1) * (N τ p i x / (τ (i+p+1) - τ i)
            - N τ p (i+1) x / (τ (i+p+2) - τ (i+1))))) x := by
        refine HasDerivAt.fun_sum fun i _ => ?_
        exact (N_hasDerivAt hτ p i x (knot x h1 h2)).const_mul (c i)
      have hz : HasDerivAt (fun y => ∑ i ∈ range m, c i * N τ (p + 1) i y) 0 x := by
        refine (hasDerivAt_const x (0 : ℝ)).congr_of_eventuallyEq ?_
        filter_upwards [Ioo_mem_nhds h1 h2] with y hy
        exact h y hy.1 hy.2
      have heq := hd.unique hz
      rw [← heq]
      have hS1 : ∑ i ∈ range (m + 1), ((p : ℝ) + 1) / (τ (i + p + 1) - τ i) * (if i < m then c i else 0) * N τ p i x
          = ∑ i ∈ range m, c i * (((p : ℝ) + 1) * (N τ p i x / (τ (i+p+1) - τ i))) := by
        rw [Finset.sum_range_succ]
        simp only [lt_irrefl, if_false, mul_zero, zero_mul, add_zero]
        refine Finset.sum_congr rfl fun i hi => ?_
        rw [if_pos (mem_range.mp hi)]; ring
      have hS2 : ∑ i ∈ range (m + 1), ((p : ℝ) + 1) / (τ (i + p + 1) - τ i) * (if 0 < i then c (i - 1) else 0) * N τ p i x
          = ∑ i ∈ range m, c i * (((p : ℝ) + 1) * (N τ p (i + 1) x / (τ (i+p+2) - τ (i + 1)))) := by
        rw [Finset.sum_range_succ']
        simp only [lt_irrefl, if_false, mul_zero, zero_mul, add_zero]
        refine Finset.sum_congr rfl fun i hi => ?_
        rw [if_pos (Nat.succ_pos i), Nat.add_sub_cancel, show i + 1 + p + 1 = i + p + 2 by ring]; ring
      calc ∑ i ∈ range (m + 1), g i * N τ p i x
          = (∑ i ∈ range (m + 1), ((p : ℝ) + 1) / (τ (i + p + 1) - τ i) * (if i < m then c i else 0) * N τ p i x)
            - ∑ i ∈ range (m + 1), ((p : ℝ) + 1) / (τ (i + p + 1) - τ i) * (if 0 < i then c (i - 1) else 0) * N τ p i x := by
              rw [← Finset.sum_sub_distrib]
              exact Finset.sum_congr rfl fun i _ => by simp only [g]; ring
        _ = _ := by
              rw [hS1, hS2, ← Finset.sum_sub_distrib]
              exact Finset.sum_congr rfl fun i _ => by ring
    have hg := ih (m := m + 1) (by omega) (by omega) g hder
    have hstep : ∀ i, e - p ≤ i → i ≤ e → c i = c (i - 1) := by
      intro i h1 h2
      have := hg i h1 h2
      simp only [g] at this
      have hpos : 0 < τ (i + p + 1) - τ i := by
        have := hτ h2
        have := hτ (show e + 1 ≤ i + p + 1 by omega)
        linarith
      have hf : ((p : ℝ) + 1) / (τ (i + p + 1) - τ i) ≠ 0 := by
        apply div_ne_zero
        · positivity
        · exact hpos.ne'
      rcases mul_eq_zero.mp this with h0 | h0
      · exact absurd h0 hf
      · rw [if_pos (by omega), if_pos (by omega)] at h0
        linarith
    have hall : ∀ d, d ≤ p + 1 → c (e - (p + 1) + d) = c (e - (p + 1)) := by
      intro d hd
      induction d with
      | zero => rfl
      | succ d ihd =>
        rw [hstep (e - (p+1) + (d + 1)) (by omega) (by omega), ← ihd (by omega)]
        congr 1
    have hx := h ((τ e + τ (e + 1)) / 2) (by linarith) (by linarith)
    have hsum := N_sum hτ (p := p + 1) (m := m) (x := (τ e + τ (e + 1)) / 2)
      (by have := hτ hp; linarith) (by have := hτ (show e + 1 ≤ m by omega); linarith)
    have hconst : ∑ i ∈ range m, c i * N τ (p + 1) i ((τ e + τ (e + 1)) / 2)
        = ∑ i ∈ range m, c (e - (p + 1)) * N τ (p + 1) i ((τ e + τ (e + 1)) / 2) := by
      refine Finset.sum_congr rfl fun i _ => ?_
      by_cases hN : N τ (p + 1) i ((τ e + τ (e + 1)) / 2) = 0
      · rw [hN, mul_zero, mul_zero]
      · obtain ⟨h1, h2⟩ := N_support hτ hN
        have hi1 : i ≤ e := by
          by_contra hc
          have := hτ (show e + 1 ≤ i by omega)
          linarith
        have hi2 : e - (p + 1) ≤ i := by
          by_contra hc
          have := hτ (show i + (p + 1) + 1 ≤ e by omega)
          linarith
        congr 1
        have := hall (i - (e - (p + 1))) (by omega)
        rwa [show e - (p + 1) + (i - (e - (p + 1))) = i by omega] at this
    rw [hconst, ← Finset.mul_sum, hsum, mul_one] at hx
    intro i h1 h2
    have := hall (i - (e - (p + 1))) (by omega)
    rw [show e - (p + 1) + (i - (e - (p + 1))) = i by omega] at this
    rw [this, hx]

/-- Unisolvence: vanishing at `p + 1` distinct points of a knot interval suffices. -/
theorem N_unisolvent {τ : Nat → ℝ} (hτ : Monotone τ) {e m : Nat} (hem : e < m) (p : Nat)
    (hp : p ≤ e) (c : Nat → ℝ) (pts : Fin (p + 1) → ℝ) (hinj : Function.Injective pts)
    (hpts : ∀ a, τ e < pts a ∧ pts a < τ (e + 1))
    (h : ∀ a, ∑ i ∈ range m, c i * N τ p i (pts a) = 0) :
    ∀ i, e - p ≤ i → i ≤ e → c i = 0 := by
  have hne : τ e < τ (e + 1) := (hpts 0).1.trans (hpts 0).2
  choose P hP hPe using fun i => N_poly hτ e p i
  let R : ℝ[X] := ∑ i ∈ range m, C (c i) * P i
  have hR : ∀ x, τ e ≤ x → x < τ (e + 1) → ∑ i ∈ range m, c i * N τ p i x = R.eval x := by
    intro x h1 h2
    simp only [R, eval_finsetSum, eval_mul, eval_C]
    exact Finset.sum_congr rfl fun i _ => by rw [hPe i x h1 h2]
  have hdeg : R.natDegree ≤ p := by
    refine natDegree_sum_le_of_forall_le _ _ fun i _ => ?_
    exact (natDegree_C_mul_le _ _).trans (hP i)
  have hR0 : R = 0 := by
    refine eq_zero_of_natDegree_lt_card_of_eval_eq_zero R hinj (fun a => ?_) (by simpa using by omega)
    rw [← hR _ (hpts a).1.le (hpts a).2]; exact h a
  refine N_local_indep hτ hem hne p hp c fun x h1 h2 => ?_
  rw [hR x h1.le h2, hR0, eval_zero]

end Mrx
