import Verif.Proofs.LocalIndep
import Verif.Proofs.Quadrature
import Verif.Proofs.SplineEval
import Mathlib.Algebra.Polynomial.Derivative

/-! # The polynomial pieces of B-splines, their coefficient size, and matching at simple knots -/

set_option linter.unusedSectionVars false
set_option linter.unusedVariables false

namespace Mrx
open Finset Spec Polynomial

/-- Sum of the absolute values of the coefficients. -/
noncomputable def ell (g : ℝ[X]) : ℝ := ∑ k ∈ g.support, |g.coeff k|

theorem ell_eq {g : ℝ[X]} {s : Finset Nat} (h : g.support ⊆ s) : ell g = ∑ k ∈ s, |g.coeff k| := by
  unfold ell
  refine Finset.sum_subset h fun k _ hk => ?_
  rw [notMem_support_iff.mp hk, abs_zero]

theorem ell_nonneg (g : ℝ[X]) : 0 ≤ ell g := Finset.sum_nonneg fun _ _ => abs_nonneg _

theorem sum_le_ell (g : ℝ[X]) (M : Nat) : ∑ k ∈ range M, |g.coeff k| ≤ ell g := by
  rw [ell_eq (Finset.subset_union_left (s₂ := range M))]
  exact Finset.sum_le_sum_of_subset_of_nonneg Finset.subset_union_right fun _ _ _ => abs_nonneg _

theorem ell_zero : ell 0 = 0 := by simp [ell]

theorem ell_one : ell 1 = 1 := by
  rw [ell_eq (s := {0}) (by rw [← C_1]; exact support_C_subset 1)]
  simp

theorem ell_add (f g : ℝ[X]) : ell (f + g) ≤ ell f + ell g := by
  rw [ell_eq (support_add (p := f) (q := g)), ell_eq (Finset.subset_union_left (s₁ := f.support) (s₂ := g.support)),
    ell_eq (Finset.subset_union_right (s₁ := f.support) (s₂ := g.support)), ← Finset.sum_add_distrib]
  exact Finset.sum_le_sum fun k _ => by rw [coeff_add]; exact abs_add_le _ _

theorem ell_C_mul (c : ℝ) (f : ℝ[X]) : ell (C c * f) = |c| * ell f := by
  rw [ell_eq (s := f.support) (by rw [← smul_eq_C_mul]; exact support_smul _ _)]
  unfold ell
  rw [Finset.mul_sum]
  exact Finset.sum_congr rfl fun k _ => by rw [coeff_C_mul, abs_mul]

theorem ell_X_mul (f : ℝ[X]) : ell (X * f) = ell f := by
  rw [ell_eq (s := range ((X * f).natDegree + f.natDegree + 2)) (fun k hk => by
      have := le_natDegree_of_mem_supp _ hk; rw [mem_range]; omega),
    ell_eq (s := range ((X * f).natDegree + f.natDegree + 1)) (fun k hk => by
      have := le_natDegree_of_mem_supp _ hk; rw [mem_range]; omega)]
  refine (Finset.sum_range_succ' (fun k => |(X * f).coeff k|) ((X * f).natDegree + f.natDegree + 1)).trans ?_
  simp only [coeff_X_mul, coeff_X_mul_zero, abs_zero, add_zero]

theorem ell_linear_mul (a b : ℝ) (f : ℝ[X]) : ell ((C a + C b * X) * f) ≤ (|a| + |b|) * ell f := by
  rw [add_mul, mul_assoc]
  refine (ell_add _ _).trans (le_of_eq ?_)
  rw [ell_C_mul, ell_C_mul, ell_X_mul]
  ring

theorem ell_sum {ι : Type*} (s : Finset ι) (f : ι → ℝ[X]) : ell (∑ i ∈ s, f i) ≤ ∑ i ∈ s, ell (f i) := by
  classical
  induction s using Finset.induction_on with
  | empty => simp [ell_zero]
  | insert a s ha ih =>
    rw [Finset.sum_insert ha, Finset.sum_insert ha]
    exact (ell_add _ _).trans (by linarith)

theorem ell_X_pow_mul (k : Nat) (f : ℝ[X]) : ell (X ^ k * f) = ell f := by
  induction k with
  | zero => simp
  | succ k ih => rw [pow_succ', mul_assoc, ell_X_mul, ih]

theorem ell_mul (f g : ℝ[X]) : ell (f * g) ≤ ell f * ell g := by
  have e : f * g = ∑ k ∈ f.support, C (f.coeff k) * (X ^ k * g) := by
    conv_lhs => rw [f.as_sum_support_C_mul_X_pow]
    rw [Finset.sum_mul]
    exact Finset.sum_congr rfl fun k _ => by ring
  rw [e]
  refine (ell_sum _ _).trans (le_of_eq ?_)
  unfold ell
  rw [Finset.sum_mul]
  refine Finset.sum_congr rfl fun k _ => ?_
  have := ell_C_mul (f.coeff k) (X ^ k * g)
  rw [ell_X_pow_mul] at this
  exact this

theorem ell_derivative (f : ℝ[X]) {d : Nat} (h : f.natDegree ≤ d) : ell (derivative f) ≤ d * ell f := by
  rw [ell_eq (s := range (d + 1)) (fun k hk => by
      have := le_natDegree_of_mem_supp _ hk
      have := natDegree_derivative_le f
      rw [mem_range]; omega),
    ell_eq (s := range (d + 2)) (fun k hk => by
      have := le_natDegree_of_mem_supp _ hk; rw [mem_range]; omega)]
  rw [show ∑ k ∈ range (d + 2), |f.coeff k| = ∑ k ∈ range (d + 1), |f.coeff (k + 1)| + |f.coeff 0| from
    Finset.sum_range_succ' (fun k => |f.coeff k|) (d + 1), mul_add, Finset.mul_sum]
  have : ∀ k ∈ range (d + 1), |(derivative f).coeff k| ≤ d * |f.coeff (k + 1)| := by
    intro k hk
    have hk := mem_range.mp hk
    rw [coeff_derivative, abs_mul, mul_comm]
    rcases Nat.lt_or_ge k d with h' | h'
    · refine mul_le_mul_of_nonneg_right ?_ (abs_nonneg _)
      rw [abs_of_nonneg (by positivity)]
      exact_mod_cast h'
    · rw [coeff_eq_zero_of_natDegree_lt (by omega)]
      simp
  have := Finset.sum_le_sum this
  nlinarith [mul_nonneg (Nat.cast_nonneg (α := ℝ) d) (abs_nonneg (f.coeff 0))]

/-! ## The pieces -/

/-- The polynomial that B-spline `i` of degree `p` is on knot interval `e`. -/
noncomputable def NP (τ : Nat → ℝ) (e : Nat) : Nat → Nat → ℝ[X]
  | 0, i => if i = e then 1 else 0
  | p + 1, i => (C (-τ i / (τ (i + p + 1) - τ i)) + C (1 / (τ (i + p + 1) - τ i)) * X) * NP τ e p i
      + (C (τ (i + p + 2) / (τ (i + p + 2) - τ (i + 1))) + C (-1 / (τ (i + p + 2) - τ (i + 1))) * X) * NP τ e p (i + 1)

theorem NP_eval_succ (τ : Nat → ℝ) (e p i : Nat) (x : ℝ) : (NP τ e (p + 1) i).eval x =
    (x - τ i) / (τ (i + p + 1) - τ i) * (NP τ e p i).eval x
      + (τ (i + p + 2) - x) / (τ (i + p + 2) - τ (i + 1)) * (NP τ e p (i + 1)).eval x := by
  simp only [NP, eval_add, eval_mul, eval_C, eval_X]
  ring

theorem NP_eval {τ : Nat → ℝ} (hτ : Monotone τ) (e p i : Nat) {x : ℝ} (h1 : τ e ≤ x) (h2 : x < τ (e + 1)) :
    (NP τ e p i).eval x = N τ p i x := by
  induction p generalizing i with
  | zero =>
    by_cases h : i = e
    · subst h
      simp [NP, N, h1, h2]
    · simp only [NP, N, if_neg h, eval_zero]
      rw [if_neg]
      rintro ⟨h3, h4⟩
      rcases Nat.lt_or_gt_of_ne h with h | h
      · exact absurd (hτ (show i + 1 ≤ e by omega)) (by linarith)
      · exact absurd (hτ (show e + 1 ≤ i by omega)) (by linarith)
  | succ p ih => rw [NP_eval_succ, ih, ih]; rfl

theorem NP_natDegree (τ : Nat → ℝ) (e p i : Nat) : (NP τ e p i).natDegree ≤ p := by
  induction p generalizing i with
  | zero => unfold NP; split <;> simp
  | succ p ih =>
    unfold NP
    refine (natDegree_add_le _ _).trans (max_le ?_ ?_)
    · refine natDegree_mul_le.trans ?_
      have : (C (-τ i / (τ (i + p + 1) - τ i)) + C (1 / (τ (i + p + 1) - τ i)) * X : ℝ[X]).natDegree ≤ 1 := by
        rw [add_comm]; exact natDegree_linear_le
      have := ih i
      omega
    · refine natDegree_mul_le.trans ?_
      have : (C (τ (i + p + 2) / (τ (i + p + 2) - τ (i + 1))) + C (-1 / (τ (i + p + 2) - τ (i + 1))) * X : ℝ[X]).natDegree ≤ 1 := by
        rw [add_comm]; exact natDegree_linear_le
      have := ih (i + 1)
      omega

theorem NP_support (τ : Nat → ℝ) (e p i : Nat) (h : e < i ∨ i + p < e) : NP τ e p i = 0 := by
  induction p generalizing i with
  | zero => unfold NP; rw [if_neg (by omega)]
  | succ p ih =>
    unfold NP
    rw [ih i (by omega), ih (i + 1) (by omega), mul_zero, mul_zero, add_zero]

/-- Matching at a simple knot. -/
theorem NP_match (τ : Nat → ℝ) (e p i : Nat) (h1 : τ e < τ (e + 1)) (h2 : τ (e + 1) < τ (e + 2)) :
    (NP τ e (p + 1) i).eval (τ (e + 1)) = (NP τ (e + 1) (p + 1) i).eval (τ (e + 1)) := by
  induction p generalizing i with
  | zero =>
    rw [NP_eval_succ, NP_eval_succ]
    simp only [NP]
    have a1 : τ (e + 1) - τ e ≠ 0 := by linarith
    have a2 : τ (e + 2) - τ (e + 1) ≠ 0 := by linarith
    rcases lt_trichotomy i e with h | rfl | h
    · by_cases h' : i + 1 = e
      · subst h'
        rw [if_neg (show ¬ i = i + 1 by omega), if_neg (show ¬ i = i + 1 + 1 by omega)]
        simp
      · rw [if_neg (by omega), if_neg (by omega), if_neg (by omega), if_neg (by omega)]
    · rw [if_pos rfl, if_neg (by omega), if_neg (by omega), if_pos rfl]
      simp [div_self a1, div_self a2]
    · by_cases h' : i = e + 1
      · subst h'
        rw [if_neg (by omega), if_neg (by omega)]
        simp
      · rw [if_neg (by omega), if_neg (by omega), if_neg (by omega), if_neg (by omega)]
  | succ p ih => rw [NP_eval_succ τ e (p + 1), NP_eval_succ τ (e + 1) (p + 1), ih, ih]

/-- Closed-interval version of `NP_eval`. -/
theorem NP_eval_right {τ : Nat → ℝ} (hτ : Monotone τ) (e p i : Nat) (h1 : τ e < τ (e + 1)) (h2 : τ (e + 1) < τ (e + 2)) :
    (NP τ e (p + 1) i).eval (τ (e + 1)) = N τ (p + 1) i (τ (e + 1)) := by
  rw [NP_match τ e p i h1 h2, NP_eval hτ (e + 1) (p + 1) i le_rfl h2]

/-- Right end with a knot of multiplicity `p + 1`. -/
theorem NP_right_end (τ : Nat → ℝ) (e p : Nat) (h : τ e < τ (e + 1)) (hm : ∀ k, e + 1 ≤ k → k ≤ e + 1 + p → τ k = τ (e + 1))
    (k i : Nat) (hk : k ≤ p) : (NP τ e k i).eval (τ (e + 1)) = if i = e then 1 else 0 := by
  induction k generalizing i with
  | zero => unfold NP; split <;> simp
  | succ k ih =>
    rw [NP_eval_succ, ih i (by omega), ih (i + 1) (by omega)]
    by_cases h1 : i = e
    · subst h1
      rw [if_pos rfl, if_neg (by omega), hm (i + k + 1) (by omega) (by omega), mul_one, mul_zero, add_zero]
      exact div_self (by linarith)
    · rw [if_neg h1, mul_zero, zero_add]
      by_cases h2 : i + 1 = e
      · rw [if_pos h2, hm (i + k + 2) (by omega) (by omega), sub_self, zero_div, zero_mul]
      · rw [if_neg h2, mul_zero]

/-- Coefficient size in the reference coordinate of the interval: at most `2 ^ p`. -/
theorem NP_size {τ : Nat → ℝ} (hτ : Monotone τ) (e p i : Nat) (h : τ e < τ (e + 1)) :
    ell ((NP τ e p i).comp (C ((τ (e + 1) - τ e) / 2) * X + C ((τ e + τ (e + 1)) / 2))) ≤ 2 ^ p := by
  induction p generalizing i with
  | zero =>
    unfold NP
    split
    · rw [one_comp, ell_one]; simp
    · rw [zero_comp, ell_zero]; simp
  | succ p ih =>
    obtain ⟨A, hA⟩ : ∃ A : ℝ[X], A = C ((τ (e + 1) - τ e) / 2) * X + C ((τ e + τ (e + 1)) / 2) := ⟨_, rfl⟩
    rw [← hA] at ih ⊢
    obtain ⟨a, ha⟩ : ∃ a, a = τ e := ⟨_, rfl⟩
    obtain ⟨b, hb⟩ : ∃ b, b = τ (e + 1) := ⟨_, rfl⟩
    -- the two factors
    have lin : ∀ c d : ℝ, (C c + C d * X : ℝ[X]).comp A = C (c + d * ((a + b) / 2)) + C (d * ((b - a) / 2)) * X := by
      intro c d
      rw [hA, ← ha, ← hb]
      simp only [add_comp, mul_comp, C_comp, X_comp, C_add, C_mul]
      ring
    have abs2 : ∀ u v : ℝ, 0 ≤ u + v → u + v ≤ 1 → 0 ≤ u - v → u - v ≤ 1 → |u| + |v| ≤ 1 := by
      intro u v h1 h2 h3 h4
      rcases abs_cases u with ⟨e1, _⟩ | ⟨e1, _⟩ <;> rcases abs_cases v with ⟨e2, _⟩ | ⟨e2, _⟩ <;> rw [e1, e2] <;> linarith
    have part : ∀ (P : ℝ[X]) (c d : ℝ), ell (P.comp A) ≤ 2 ^ p → (P = 0 ∨ (0 ≤ c + d * a ∧ c + d * a ≤ 1 ∧ 0 ≤ c + d * b ∧ c + d * b ≤ 1)) →
        ell (((C c + C d * X) * P).comp A) ≤ 2 ^ p := by
      intro P c d hP hz
      rcases hz with rfl | ⟨z1, z2, z3, z4⟩
      · rw [mul_zero, zero_comp, ell_zero]; positivity
      · rw [mul_comp, lin]
        refine (ell_linear_mul _ _ _).trans ?_
        have := abs2 (c + d * ((a + b) / 2)) (d * ((b - a) / 2)) (by linarith) (by linarith) (by linarith) (by linarith)
        calc _ ≤ 1 * ell (P.comp A) := mul_le_mul_of_nonneg_right this (ell_nonneg _)
          _ ≤ 2 ^ p := by rw [one_mul]; exact hP
    unfold NP
    rw [add_comp]
    refine (ell_add _ _).trans ?_
    have p1 := part (NP τ e p i) (-τ i / (τ (i + p + 1) - τ i)) (1 / (τ (i + p + 1) - τ i)) (ih i) (by
      by_cases hs : e < i ∨ i + p < e
      · exact Or.inl (NP_support τ e p i hs)
      · have m1 : τ i ≤ τ e := hτ (by omega)
        have m2 : τ (e + 1) ≤ τ (i + p + 1) := hτ (by omega)
        have hpos : 0 < τ (i + p + 1) - τ i := by linarith
        have e1 : ∀ y, -τ i / (τ (i + p + 1) - τ i) + 1 / (τ (i + p + 1) - τ i) * y = (y - τ i) / (τ (i + p + 1) - τ i) := fun y => by ring
        rw [e1, e1, ha, hb]
        refine Or.inr ⟨div_nonneg (by linarith) hpos.le, (div_le_one hpos).mpr (by linarith), div_nonneg (by linarith) hpos.le,
          (div_le_one hpos).mpr (by linarith)⟩)
    have p2 := part (NP τ e p (i + 1)) (τ (i + p + 2) / (τ (i + p + 2) - τ (i + 1))) (-1 / (τ (i + p + 2) - τ (i + 1))) (ih (i + 1)) (by
      by_cases hs : e < i + 1 ∨ i + 1 + p < e
      · exact Or.inl (NP_support τ e p (i + 1) hs)
      · have m1 : τ (i + 1) ≤ τ e := hτ (by omega)
        have m2 : τ (e + 1) ≤ τ (i + p + 2) := hτ (by omega)
        have hpos : 0 < τ (i + p + 2) - τ (i + 1) := by linarith
        have e1 : ∀ y, τ (i + p + 2) / (τ (i + p + 2) - τ (i + 1)) + -1 / (τ (i + p + 2) - τ (i + 1)) * y
          = (τ (i + p + 2) - y) / (τ (i + p + 2) - τ (i + 1)) := fun y => by ring
        rw [e1, e1, ha, hb]
        refine Or.inr ⟨div_nonneg (by linarith) hpos.le, (div_le_one hpos).mpr (by linarith), div_nonneg (by linarith) hpos.le,
          (div_le_one hpos).mpr (by linarith)⟩)
    rw [pow_succ]
    linarith

end Mrx
