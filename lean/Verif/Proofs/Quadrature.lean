import Verif.Model.Quadrature
import Verif.Spec.Integral
import Verif.Proofs.Knots
import Mathlib.Tactic.NormNum
import Mathlib.Data.Rat.Cast.Order
import Mathlib.Data.Rat.Cast.CharZero

/-! # Quadrature: lemmas -/

set_option linter.unusedSectionVars false

namespace Mrx.Quad

open Finset Mrx.Spec

/-! ## The table (finite, checked by the kernel) -/

/-- Reference moment `∫_{-1}^{1} x^k`. -/
def moment (k : Nat) : Rat := if k % 2 = 0 then 2 / (k + 1) else 0

theorem table_moments : ∀ n ∈ List.range 11, 1 ≤ n → ∀ k ∈ List.range (2 * n),
    |(((nodesAndWeights n).1.zip (nodesAndWeights n).2).map fun t => t.2 * t.1 ^ k).sum - moment k|
      ≤ 3 / 10 ^ 16 := by decide +kernel

theorem table_nodes : ∀ n ∈ List.range 11, 1 ≤ n →
    (nodesAndWeights n).1.length = n ∧ (nodesAndWeights n).2.length = n ∧
    (∀ x ∈ (nodesAndWeights n).1, -1 < x ∧ x < 1) ∧ (∀ w ∈ (nodesAndWeights n).2, 0 < w) ∧
    (nodesAndWeights n).1.Pairwise (· < ·) := by decide +kernel

variable {K : Type*} [Field K] [LinearOrder K] [IsStrictOrderedRing K]

theorem els_eq {α : Type*} (T : List α) :
    (Jax.slice T 0 (-1)).zip (Jax.slice T 1 T.length) = T.zip T.tail := by
  by_cases h : T = []
  · subst h; rfl
  · rw [Jax.slice_dropLast T h, Jax.slice_tail, List.drop_one]
    clear h
    induction T with
    | nil => rfl
    | cons a t ih =>
      cases t with
      | nil => rfl
      | cons b r => simpa using ih

theorem getElem?_flatMap_block {α β : Type*} (l : List α) (f : α → List β) (k : Nat)
    (hk : ∀ a ∈ l, (f a).length = k) (e q : Nat) (he : e < l.length) (hq : q < k) :
    (l.flatMap f)[e * k + q]? = (f l[e])[q]? := by
  induction l generalizing e with
  | nil => simp at he
  | cons a t ih =>
    have ha := hk a (by simp)
    rw [List.flatMap_cons]
    cases e with
    | zero => rw [List.getElem?_append_left (by omega)]; simp
    | succ e =>
      rw [List.getElem?_append_right (by rw [ha]; nlinarith), ha,
        show (e+1) * k + q - k = e * k + q by rw [Nat.succ_mul]; omega]
      rw [ih (fun b hb => hk b (by simp [hb])) e (by simpa using he)]
      simp

theorem length_flatMap_block {α β : Type*} (l : List α) (f : α → List β) (k : Nat)
    (hk : ∀ a ∈ l, (f a).length = k) : (l.flatMap f).length = l.length * k := by
  induction l with
  | nil => simp
  | cons a t ih =>
    rw [List.flatMap_cons, List.length_append, hk a (by simp), ih (fun b hb => hk b (by simp [hb]))]
    simp; ring

theorem length_rescale {n : Nat} (h1 : 1 ≤ n) (h2 : n ≤ 10) (a b : K) :
    (rescale (nodesAndWeights n) a b).1.length = n ∧ (rescale (nodesAndWeights n) a b).2.length = n := by
  obtain ⟨e1, e2, _⟩ := table_nodes n (List.mem_range.mpr (by omega)) h1
  simp [rescale, e1, e2]

theorem applyRule_flatMap {α : Type*} (l : List α) (f g : α → List K) (k : Nat)
    (hf : ∀ a ∈ l, (f a).length = k) (hg : ∀ a ∈ l, (g a).length = k) (F : K → K) :
    applyRule (l.flatMap f, l.flatMap g) F = (l.map fun a => applyRule (f a, g a) F).sum := by
  induction l with
  | nil => rfl
  | cons a t ih =>
    have := ih (fun b hb => hf b (by simp [hb])) (fun b hb => hg b (by simp [hb]))
    simp only [List.flatMap_cons, List.map_cons, List.sum_cons, ← this]
    simp only [applyRule]
    rw [List.zip_append (by rw [hf a (by simp), hg a (by simp)])]
    simp

/-! ## Polynomial exactness -/

theorem integral_pow_ref (k : Nat) : ∫ x in (-1 : ℝ)..1, x ^ k = ((moment k : Rat) : ℝ) := by
  rw [integral_pow]
  unfold moment
  rcases Nat.even_or_odd k with hk | hk
  · rw [if_pos (Nat.even_iff.mp hk)]
    have : (-1 : ℝ) ^ (k+1) = -1 := Odd.neg_one_pow hk.add_one
    rw [this]; push_cast; norm_num
  · rw [if_neg (by rw [Nat.odd_iff.mp hk]; decide)]
    have : (-1 : ℝ) ^ (k+1) = 1 := Even.neg_one_pow hk.add_one
    rw [this]; simp

theorem ref_moment_real {n : Nat} (h1 : 1 ≤ n) (h2 : n ≤ 10) {k : Nat} (hk : k < 2 * n) :
    |(((nodesAndWeights n).1.zip (nodesAndWeights n).2).map fun t => ((t.2 : Rat) : ℝ) * ((t.1 : Rat) : ℝ) ^ k).sum
      - ∫ x in (-1 : ℝ)..1, x ^ k| ≤ 3 / 10 ^ 16 := by
  have h := table_moments n (List.mem_range.mpr (by omega)) h1 k (List.mem_range.mpr hk)
  rw [integral_pow_ref]
  have h' : (((|(((nodesAndWeights n).1.zip (nodesAndWeights n).2).map fun t => t.2 * t.1 ^ k).sum - moment k| : Rat)) : ℝ)
      ≤ ((3 / 10 ^ 16 : Rat) : ℝ) := by exact_mod_cast h
  push_cast at h'
  rw [List.map_map] at h'
  simpa [Function.comp_def] using h'

theorem sum_map_finset_sum {α : Type*} (l : List α) (m : Nat) (F : α → Nat → ℝ) :
    (l.map fun t => ∑ k ∈ range m, F t k).sum = ∑ k ∈ range m, (l.map fun t => F t k).sum := by
  induction l with
  | nil => simp
  | cons a t ih => simp [ih, sum_add_distrib]

theorem sum_map_mul_left' {α : Type*} (l : List α) (c : ℝ) (F : α → ℝ) :
    (l.map fun t => c * F t).sum = c * (l.map F).sum := by
  induction l with
  | nil => simp
  | cons a t ih => simp [ih, mul_add]

/-- Reference interval: error bound for every polynomial of degree `< 2n`. -/
theorem ref_exact {n : Nat} (h1 : 1 ≤ n) (h2 : n ≤ 10) (g : Polynomial ℝ) (hg : g.natDegree < 2 * n) :
    |(((nodesAndWeights n).1.zip (nodesAndWeights n).2).map fun t => ((t.2 : Rat) : ℝ) * g.eval ((t.1 : Rat) : ℝ)).sum
      - ∫ x in (-1 : ℝ)..1, g.eval x| ≤ 3 / 10 ^ 16 * ∑ k ∈ range (2*n), |g.coeff k| := by
  have hint : ∫ x in (-1 : ℝ)..1, g.eval x = ∑ k ∈ range (2*n), g.coeff k * ∫ x in (-1 : ℝ)..1, x ^ k := by
    have : (fun x => g.eval x) = fun x => ∑ k ∈ range (2*n), g.coeff k * x ^ k := by
      funext x; rw [Polynomial.eval_eq_sum_range' hg]
    rw [this, intervalIntegral.integral_finset_sum]
    · exact sum_congr rfl fun k _ => intervalIntegral.integral_const_mul _ _
    · intro k _
      exact (Continuous.intervalIntegrable (by fun_prop) _ _)
  have hsum : (((nodesAndWeights n).1.zip (nodesAndWeights n).2).map fun t => ((t.2 : Rat) : ℝ) * g.eval ((t.1 : Rat) : ℝ)).sum
      = ∑ k ∈ range (2*n), g.coeff k * (((nodesAndWeights n).1.zip (nodesAndWeights n).2).map fun t =>
          ((t.2 : Rat) : ℝ) * ((t.1 : Rat) : ℝ) ^ k).sum := by
    have : (fun t : Rat × Rat => ((t.2 : Rat) : ℝ) * g.eval ((t.1 : Rat) : ℝ)) = fun t =>
        ∑ k ∈ range (2*n), g.coeff k * (((t.2 : Rat) : ℝ) * ((t.1 : Rat) : ℝ) ^ k) := by
      funext t
      rw [Polynomial.eval_eq_sum_range' hg, mul_sum]
      exact sum_congr rfl fun k _ => by ring
    rw [this, sum_map_finset_sum]
    exact sum_congr rfl fun k _ => sum_map_mul_left' _ _ _
  rw [hint, hsum, ← sum_sub_distrib, mul_sum]
  refine (abs_sum_le_sum_abs _ _).trans (sum_le_sum fun k hk => ?_)
  rw [← mul_sub, abs_mul, mul_comm]
  exact mul_le_mul_of_nonneg_right (ref_moment_real h1 h2 (mem_range.mp hk)) (abs_nonneg _)

/-- One element `[a,b]`. -/
theorem element_exact {n : Nat} (h1 : 1 ≤ n) (h2 : n ≤ 10) (f : Polynomial ℝ)
    (hf : f.natDegree < 2 * n) (a b : ℝ) (hab : a < b) :
    |applyRule (rescale (nodesAndWeights n) a b) (fun x => f.eval x) - ∫ x in a..b, f.eval x|
      ≤ 3 / 10 ^ 16 * ((b - a) / 2 * coeffSize f a b (2 * n)) := by
  set A : Polynomial ℝ := Polynomial.C ((b - a) / 2) * Polynomial.X + Polynomial.C ((a + b) / 2) with hA
  have hdeg : (f.comp A).natDegree < 2 * n := by
    refine lt_of_le_of_lt Polynomial.natDegree_comp_le ?_
    have : A.natDegree ≤ 1 := Polynomial.natDegree_linear_le
    calc f.natDegree * A.natDegree ≤ f.natDegree * 1 := Nat.mul_le_mul_left _ this
      _ < 2 * n := by omega
  have hr := ref_exact h1 h2 (f.comp A) hdeg
  have hAe : ∀ x, (f.comp A).eval x = f.eval ((b-a)/2 * x + (a+b)/2) := by
    intro x; simp [Polynomial.eval_comp, hA]
  have hi : ∫ x in (-1:ℝ)..1, (f.comp A).eval x = ((b-a)/2)⁻¹ * ∫ x in a..b, f.eval x := by
    have hne : (b - a) / 2 ≠ 0 := by linarith
    simp only [hAe]
    rw [intervalIntegral.integral_comp_mul_add (fun x => f.eval x) hne]
    rw [smul_eq_mul]
    congr 2 <;> ring
  have hq : applyRule (rescale (nodesAndWeights n) a b) (fun x => f.eval x)
      = (b-a)/2 * (((nodesAndWeights n).1.zip (nodesAndWeights n).2).map fun t =>
          ((t.2 : Rat) : ℝ) * (f.comp A).eval ((t.1 : Rat) : ℝ)).sum := by
    unfold applyRule rescale
    rw [List.zip_map, List.map_map, ← sum_map_mul_left']
    congr 1
    apply List.map_congr_left
    intro t _
    simp only [Function.comp, Prod.map, hAe]
    rw [show ((t.1 : ℝ) + 1) / 2 * (b - a) + a = (b-a)/2 * t.1 + (a+b)/2 by ring]
    ring
  have hpos : 0 < (b - a) / 2 := by linarith
  rw [hi] at hr
  rw [hq]
  have : (b-a)/2 * (((nodesAndWeights n).1.zip (nodesAndWeights n).2).map fun t =>
          ((t.2 : Rat) : ℝ) * (f.comp A).eval ((t.1 : Rat) : ℝ)).sum - ∫ x in a..b, f.eval x
      = (b-a)/2 * ((((nodesAndWeights n).1.zip (nodesAndWeights n).2).map fun t =>
          ((t.2 : Rat) : ℝ) * (f.comp A).eval ((t.1 : Rat) : ℝ)).sum - ((b-a)/2)⁻¹ * ∫ x in a..b, f.eval x) := by
    rw [mul_sub, ← mul_assoc, mul_inv_cancel₀ hpos.ne', one_mul]
  rw [this, abs_mul, abs_of_pos hpos]
  calc _ ≤ (b-a)/2 * (3 / 10 ^ 16 * ∑ k ∈ range (2*n), |(f.comp A).coeff k|) := by gcongr
    _ = _ := by rw [coeffSize]; ring

theorem zip_tail_cons {α : Type*} (a b : α) (r : List α) :
    (a :: b :: r).zip (a :: b :: r).tail = (a, b) :: (b :: r).zip (b :: r).tail := rfl

end Mrx.Quad
