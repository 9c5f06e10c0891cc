import Verif.Proofs.LocalPoly
import Mathlib.LinearAlgebra.Lagrange
import Mathlib.Analysis.Calculus.Deriv.Polynomial

/-! # Unisolvence with only `p` points per element

A spline of degree `p ≥ 2` has one coefficient per element fewer than a piecewise polynomial of degree `p`, and
continuity of the value and of the first derivative at a simple knot replace the missing point. -/

set_option linter.unusedSectionVars false
set_option linter.unusedVariables false

namespace Mrx
open Finset Spec Polynomial

theorem NP_derivative {τ : Nat → ℝ} (hτ : Monotone τ) (e p i : Nat) (h : τ e < τ (e + 1)) :
    derivative (NP τ e (p + 1) i) = C ((p : ℝ) + 1) * (C (1 / (τ (i + p + 1) - τ i)) * NP τ e p i
      - C (1 / (τ (i + p + 2) - τ (i + 1))) * NP τ e p (i + 1)) := by
  refine eq_of_infinite_eval_eq _ _ ((Set.Ioo_infinite h).mono fun x hx => ?_)
  have hk : ∀ k, τ k ≠ x := by
    intro k hk
    rcases Nat.lt_or_ge e k with h' | h'
    · exact absurd (hτ (show e + 1 ≤ k by omega)) (by linarith [hx.2])
    · exact absurd (hτ h') (by linarith [hx.1])
  have d1 := N_hasDerivAt hτ p i x hk
  have d2 : HasDerivAt (N τ (p + 1) i) ((derivative (NP τ e (p + 1) i)).eval x) x := by
    refine ((NP τ e (p + 1) i).hasDerivAt x).congr_of_eventuallyEq ?_
    filter_upwards [Ioo_mem_nhds hx.1 hx.2] with y hy
    exact (NP_eval hτ e (p + 1) i hy.1.le hy.2).symm
  show (derivative (NP τ e (p + 1) i)).eval x = _
  rw [d2.unique d1]
  simp only [eval_mul, eval_C, eval_sub, NP_eval hτ e p _ hx.1.le hx.2]
  ring

/-- Matching of the derivative at a simple knot, degree at least two. -/
theorem NP_match_deriv {τ : Nat → ℝ} (hτ : Monotone τ) (e p i : Nat) (h1 : τ e < τ (e + 1)) (h2 : τ (e + 1) < τ (e + 2)) :
    (derivative (NP τ e (p + 2) i)).eval (τ (e + 1)) = (derivative (NP τ (e + 1) (p + 2) i)).eval (τ (e + 1)) := by
  rw [NP_derivative hτ e (p + 1) i h1, NP_derivative hτ (e + 1) (p + 1) i h2]
  simp only [eval_mul, eval_C, eval_sub]
  rw [NP_match τ e p i h1 h2, NP_match τ e p (i + 1) h1 h2]

/-- A polynomial of degree at most `p` vanishing at `p` distinct points is a multiple of the node polynomial. -/
theorem eq_C_mul_nodal {p : Nat} (R : ℝ[X]) (hR : R.natDegree ≤ p) (pts : Fin p → ℝ) (hinj : Function.Injective pts)
    (h : ∀ a, R.eval (pts a) = 0) : R = C (R.coeff p) * Lagrange.nodal univ pts := by
  obtain ⟨W, hW⟩ : ∃ W, W = Lagrange.nodal (univ : Finset (Fin p)) pts := ⟨_, rfl⟩
  have hd : W.natDegree = p := by rw [hW, Lagrange.natDegree_nodal]; simp
  have hm : W.Monic := by rw [hW]; exact Lagrange.nodal_monic
  have hz : ∀ a, W.eval (pts a) = 0 := fun a => by rw [hW]; exact Lagrange.eval_nodal_at_node (mem_univ a)
  rw [← hW]
  have hc : (R - C (R.coeff p) * W).coeff p = 0 := by
    have : W.coeff p = 1 := by have := hm.coeff_natDegree; rwa [hd] at this
    rw [coeff_sub, coeff_C_mul, this]; ring
  have hdeg : (R - C (R.coeff p) * W).natDegree ≤ p :=
    (natDegree_sub_le _ _).trans (max_le hR ((natDegree_C_mul_le _ _).trans hd.le))
  have h0 : R - C (R.coeff p) * W = 0 := by
    rcases Nat.eq_zero_or_pos p with rfl | hp
    · rw [eq_C_of_natDegree_le_zero hdeg, hc, C_0]
    · have hlt : (R - C (R.coeff p) * W).natDegree < p := by
        refine lt_of_le_of_ne hdeg fun he => ?_
        have : (R - C (R.coeff p) * W).leadingCoeff = 0 := by rw [leadingCoeff, he, hc]
        rw [leadingCoeff_eq_zero.mp this] at he
        simp at he
        omega
      refine eq_zero_of_natDegree_lt_card_of_eval_eq_zero _ hinj (fun a => ?_) (by simpa using hlt)
      rw [eval_sub, eval_mul, h, hz, mul_zero, sub_zero]
  exact sub_eq_zero.mp h0

theorem nodal_mul_deriv {p : Nat} (pts : Fin p → ℝ) (t : ℝ) :
    (Lagrange.nodal univ pts).eval t * (derivative (Lagrange.nodal univ pts)).eval t
      = ∑ i, (t - pts i) * (∏ j ∈ univ.erase i, (t - pts j)) ^ 2 := by
  rw [Lagrange.derivative_nodal, eval_finsetSum, Finset.mul_sum]
  refine Finset.sum_congr rfl fun i _ => ?_
  rw [Lagrange.eval_nodal, Lagrange.eval_nodal, ← Finset.mul_prod_erase univ _ (mem_univ i)]
  ring

theorem nodal_pos {p : Nat} (hp : 0 < p) (pts : Fin p → ℝ) (t : ℝ) (h : ∀ i, pts i < t) :
    0 < (Lagrange.nodal univ pts).eval t * (derivative (Lagrange.nodal univ pts)).eval t := by
  rw [nodal_mul_deriv]
  refine Finset.sum_pos (fun i _ => mul_pos (by linarith [h i]) (pow_pos (Finset.prod_pos fun j _ => by linarith [h j]) 2)) ⟨⟨0, hp⟩, mem_univ _⟩

theorem nodal_neg {p : Nat} (hp : 0 < p) (pts : Fin p → ℝ) (t : ℝ) (h : ∀ i, t < pts i) :
    (Lagrange.nodal univ pts).eval t * (derivative (Lagrange.nodal univ pts)).eval t < 0 := by
  rw [nodal_mul_deriv]
  refine Finset.sum_neg (fun i _ => mul_neg_of_neg_of_pos (by linarith [h i]) ?_) ⟨⟨0, hp⟩, mem_univ _⟩
  have : ∏ j ∈ univ.erase i, (t - pts j) ≠ 0 := Finset.prod_ne_zero_iff.mpr fun j _ => by linarith [h j]
  positivity

/-- Two neighbouring elements with `p` points each. -/
theorem N_unisolvent_pair {τ : Nat → ℝ} (hτ : Monotone τ) {e m p : Nat} (hem : e + 1 < m) (hp2 : 2 ≤ p) (hp : p ≤ e) (c : Nat → ℝ)
    (xs ys : Fin p → ℝ) (hx : Function.Injective xs) (hy : Function.Injective ys)
    (hxi : ∀ a, τ e < xs a ∧ xs a < τ (e + 1)) (hyi : ∀ a, τ (e + 1) < ys a ∧ ys a < τ (e + 2))
    (h : ∀ a, ∑ i ∈ range m, c i * N τ p i (xs a) = 0) (h' : ∀ a, ∑ i ∈ range m, c i * N τ p i (ys a) = 0) :
    ∀ i, e - p ≤ i → i ≤ e + 1 → c i = 0 := by
  have n1 : τ e < τ (e + 1) := (hxi ⟨0, by omega⟩).1.trans (hxi ⟨0, by omega⟩).2
  have n2 : τ (e + 1) < τ (e + 2) := (hyi ⟨0, by omega⟩).1.trans (hyi ⟨0, by omega⟩).2
  obtain ⟨R, hRd⟩ : ∃ R : Nat → ℝ[X], R = fun f => ∑ i ∈ range m, C (c i) * NP τ f p i := ⟨_, rfl⟩
  have hR : ∀ f x, τ f ≤ x → x < τ (f + 1) → (R f).eval x = ∑ i ∈ range m, c i * N τ p i x := by
    intro f x a b
    rw [hRd]
    simp only [eval_finsetSum, eval_mul, eval_C]
    exact Finset.sum_congr rfl fun i _ => by rw [NP_eval hτ f p i a b]
  have hdeg : ∀ f, (R f).natDegree ≤ p := by
    intro f
    rw [hRd]
    exact natDegree_sum_le_of_forall_le _ _ fun i _ => (natDegree_C_mul_le _ _).trans (NP_natDegree τ f p i)
  have f1 := eq_C_mul_nodal (R e) (hdeg e) xs hx fun a => (hR e _ (hxi a).1.le (hxi a).2).trans (h a)
  have f2 := eq_C_mul_nodal (R (e + 1)) (hdeg (e + 1)) ys hy fun a => (hR (e + 1) _ (hyi a).1.le (hyi a).2).trans (h' a)
  have m1 : (R e).eval (τ (e + 1)) = (R (e + 1)).eval (τ (e + 1)) := by
    obtain ⟨r, rfl⟩ : ∃ r, p = r + 1 := ⟨p - 1, by omega⟩
    rw [hRd]
    simp only [eval_finsetSum, eval_mul, eval_C]
    exact Finset.sum_congr rfl fun i _ => by rw [NP_match τ e r i n1 n2]
  have m2 : (derivative (R e)).eval (τ (e + 1)) = (derivative (R (e + 1))).eval (τ (e + 1)) := by
    obtain ⟨r, rfl⟩ : ∃ r, p = r + 2 := ⟨p - 2, by omega⟩
    rw [hRd]
    simp only [derivative_sum, derivative_C_mul, eval_finsetSum, eval_mul, eval_C]
    exact Finset.sum_congr rfl fun i _ => by rw [NP_match_deriv hτ e r i n1 n2]
  obtain ⟨a, ha⟩ : ∃ a, a = (R e).coeff p := ⟨_, rfl⟩
  obtain ⟨b, hb⟩ : ∃ b, b = (R (e + 1)).coeff p := ⟨_, rfl⟩
  rw [← ha] at f1
  rw [← hb] at f2
  have g1 := nodal_pos (by omega : 0 < p) xs (τ (e + 1)) fun i => (hxi i).2
  have g2 := nodal_neg (by omega : 0 < p) ys (τ (e + 1)) fun i => (hyi i).1
  rw [f1, f2] at m1 m2
  simp only [derivative_C_mul, eval_mul, eval_C] at m1 m2
  have key : a ^ 2 * ((Lagrange.nodal univ xs).eval (τ (e + 1)) * (derivative (Lagrange.nodal univ xs)).eval (τ (e + 1)))
      = b ^ 2 * ((Lagrange.nodal univ ys).eval (τ (e + 1)) * (derivative (Lagrange.nodal univ ys)).eval (τ (e + 1))) := by
    calc _ = (a * (Lagrange.nodal univ xs).eval (τ (e + 1))) * (a * (derivative (Lagrange.nodal univ xs)).eval (τ (e + 1))) := by ring
      _ = _ := by rw [m1, m2]; ring
  have l1 := mul_nonneg (sq_nonneg a) g1.le
  have l2 := mul_nonpos_of_nonneg_of_nonpos (sq_nonneg b) g2.le
  have a0 : a = 0 := by
    have : a ^ 2 * ((Lagrange.nodal univ xs).eval (τ (e + 1)) * (derivative (Lagrange.nodal univ xs)).eval (τ (e + 1))) = 0 := by linarith
    rcases mul_eq_zero.mp this with h | h
    · exact pow_eq_zero_iff (two_ne_zero) |>.mp h
    · exact absurd h g1.ne'
  have b0 : b = 0 := by
    have : b ^ 2 * ((Lagrange.nodal univ ys).eval (τ (e + 1)) * (derivative (Lagrange.nodal univ ys)).eval (τ (e + 1))) = 0 := by linarith
    rcases mul_eq_zero.mp this with h | h
    · exact pow_eq_zero_iff (two_ne_zero) |>.mp h
    · exact absurd h g2.ne
  rw [a0, C_0, zero_mul] at f1
  rw [b0, C_0, zero_mul] at f2
  intro i i1 i2
  rcases Nat.lt_or_ge i (e + 1) with hi | hi
  · refine N_local_indep hτ (m := m) (by omega) n1 p hp c (fun x x1 x2 => ?_) i i1 (by omega)
    rw [← hR e x x1.le x2, f1, eval_zero]
  · refine N_local_indep hτ (e := e + 1) hem n2 p (by omega) c (fun x x1 x2 => ?_) i (by omega) i2
    rw [← hR (e + 1) x x1.le x2, f2, eval_zero]

end Mrx
