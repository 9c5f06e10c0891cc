import Verif.Props.HighOrder
import Verif.Props.GradApprox
import Verif.Proofs.HighSlope

/-!
# C119: gradients and Poisson solutions of full order

The derivative of the quasi-interpolant of C118 approximates the derivative with order `p`, near the axis of a polar sequence relative to the radius; the discrete gradients of discrete 0-forms
approximate gradients with order `p`, and the computed solutions of Poisson problems converge with order `p` in the energy norm, also on polar sequences.
-/

set_option linter.unusedSectionVars false
set_option linter.unusedVariables false

namespace Mrx.Props
open Finset Mrx.Spec Mrx Matrix DeRham Quad

/-! ## One direction -/

theorem clamped_gap_ge (n p i : Nat) (hp : 1 ≤ p) (h : p < n) (hi : i < n - 1) : 1 / ((n : ℝ) - p) ≤ clampedKnot ℝ n p (i + p + 1) - clampedKnot ℝ n p (i + 1) := by
  have hn : (0 : ℝ) < (n : ℝ) - p := by
    have : (p : ℝ) < n := by exact_mod_cast h
    linarith
  have hn1 : (1 : ℝ) ≤ (n : ℝ) - p := by
    have : ((p + 1 : Nat) : ℝ) ≤ n := by exact_mod_cast h
    push_cast at this
    linarith
  have hp1 : (1 : ℝ) ≤ p := by exact_mod_cast hp
  have i0 : (0 : ℝ) ≤ i := Nat.cast_nonneg i
  have inn : (i : ℝ) + 2 ≤ n := by exact_mod_cast (by omega : i + 2 ≤ n)
  unfold clampedKnot
  rw [if_neg (show ¬ i + p + 1 ≤ p by omega), Nat.cast_sub h.le, if_neg (show ¬ n ≤ i + 1 by omega)]
  have e : ((i + p + 1 - p : Nat) : ℝ) = i + 1 := by rw [show i + p + 1 - p = i + 1 by omega]; push_cast; ring
  rw [e]
  split_ifs with a b b
  · rw [sub_zero, div_le_one hn]; exact hn1
  · rw [Nat.cast_sub (by omega : p ≤ i + 1), div_le_iff₀ hn, sub_mul, div_mul_cancel₀ _ hn.ne']
    push_cast
    linarith
  · rw [sub_zero]; exact div_le_div_of_nonneg_right (by linarith) hn.le
  · rw [Nat.cast_sub (by omega : p ≤ i + 1), ← sub_div]
    refine div_le_div_of_nonneg_right ?_ hn.le
    push_cast
    linarith

theorem clamped_slope (n p : Nat) (hp : 1 ≤ p) (h : p < n) (hfine : n - p ≤ 99900) (s : SplineBasis ℝ) (hs : SplineBasis.mk? n p "clamped" = .ok s)
    (d : DerivativeSpline ℝ) (hd : DerivativeSpline.mk? s = .ok d)
    (D : Nat → ℝ → ℝ) (hD : Jets (Set.Icc 0 1) p D) (M : ℝ) (hM : ∀ x, 0 ≤ x → x ≤ 1 → |D (p + 1) x| ≤ M) (x : ℝ) (h0 : 0 ≤ x) (h1 : x < 1) :
    |D 1 x - ∑ i ∈ range (n - 1), (clampedQuasi n p D (i + 1) - clampedQuasi n p D i) * d.evaluate x (i : Int)|
      ≤ 2 * (M * (2 * (((p : ℝ) + 1) / ((n : ℝ) - p))) ^ (p + 1) / (p + 1).factorial) * (p * ((n : ℝ) - p)) := by
  have hn : (0 : ℝ) < (n : ℝ) - p := by
    have : (p : ℝ) < n := by exact_mod_cast h
    linarith
  have hp0 : (0 : ℝ) < p := by exact_mod_cast hp
  have hM0 : 0 ≤ M := (abs_nonneg _).trans (hM 0 le_rfl zero_le_one)
  have hm := monotone_clampedKnot (K := ℝ) n p h
  have hm' := monotone_clampedKnot (K := ℝ) (n - 1) (p - 1) (by omega)
  have sh := fun k => clampedKnot_shift n p k hp h
  have val : ∀ i < n - 1, (clampedKnot ℝ n p (i + p + 1) - clampedKnot ℝ n p (i + 1)) / p * d.evaluate x (i : Int) = N (clampedKnot ℝ (n - 1) (p - 1)) (p - 1) i x := by
    intro i hi
    rw [C08_clamped_derivative_values n p hp h hfine s hs d hd x h1.ne i, if_pos hi]
    have : N (clampedKnot ℝ n p) (p - 1) (i + 1) x = N (clampedKnot ℝ (n - 1) (p - 1)) (p - 1) i x :=
      N_congr fun k _ => by rw [show i + 1 + k = i + k + 1 by omega, clampedKnot_shift n p _ hp h]
    rw [this]
    have := (clamped_gap_pos n p i hp h hi).ne'
    field_simp
  have le0 : clampedKnot ℝ (n - 1) (p - 1) (p - 1) ≤ x := by rw [clampedKnot_zero _ _ _ le_rfl]; exact h0
  have le1 : x < clampedKnot ℝ (n - 1) (p - 1) (n - 1) := by rw [clampedKnot_one _ _ _ le_rfl (by omega)]; exact h1
  have vb : ∀ i < n - 1, 0 ≤ d.evaluate x (i : Int) ∧ d.evaluate x (i : Int) ≤ p * ((n : ℝ) - p) * N (clampedKnot ℝ (n - 1) (p - 1)) (p - 1) i x := by
    intro i hi
    have v := val i hi
    have N0 : 0 ≤ N (clampedKnot ℝ (n - 1) (p - 1)) (p - 1) i x := N_nonneg hm' _ _ _
    have g := clamped_gap_pos n p i hp h hi
    have g1 := clamped_gap_ge n p i hp h hi
    have gp : 0 < (clampedKnot ℝ n p (i + p + 1) - clampedKnot ℝ n p (i + 1)) / p := div_pos g hp0
    have v0 : 0 ≤ d.evaluate x (i : Int) := by
      by_contra hc
      rw [not_le] at hc
      have := mul_neg_of_pos_of_neg gp hc
      linarith
    refine ⟨v0, ?_⟩
    rw [← v]
    have k : 1 ≤ p * ((n : ℝ) - p) * ((clampedKnot ℝ n p (i + p + 1) - clampedKnot ℝ n p (i + 1)) / p) := by
      rw [show (p : ℝ) * ((n : ℝ) - p) * ((clampedKnot ℝ n p (i + p + 1) - clampedKnot ℝ n p (i + 1)) / p) = ((n : ℝ) - p) * (clampedKnot ℝ n p (i + p + 1) - clampedKnot ℝ n p (i + 1)) by
        field_simp]
      calc (1 : ℝ) = ((n : ℝ) - p) * (1 / ((n : ℝ) - p)) := by field_simp
        _ ≤ _ := mul_le_mul_of_nonneg_left g1 hn.le
    rw [← mul_assoc]
    exact le_mul_of_one_le_left v0 k
  obtain ⟨q, rfl⟩ : ∃ q, p = q + 1 := ⟨p - 1, by omega⟩
  rw [Nat.add_sub_cancel] at *
  refine slope_error (q := q) (τ := clampedKnot ℝ n (q + 1)) sh (w := fun i => N (clampedKnot ℝ (n - 1) q) q i x) (fun i hi => (vb i hi).1) ?_ (by positivity) (fun i hi => ?_)
    (fun y => marsden hm' le0 le1 y) _ (fun i hi hv => ?_)
  · refine (sum_le_sum fun i hi => (vb i (mem_range.mp hi)).2).trans ?_
    rw [← mul_sum, N_sum hm' le0 le1, mul_one]
  · have := val i hi
    rw [show i + (q + 1) + 1 = i + 1 + 1 + q by omega] at this
    push_cast at this
    exact this
  · have hx : N (clampedKnot ℝ (n - 1) q) q i x ≠ 0 := by
      intro hc
      have := (vb i hi).2
      rw [hc, mul_zero] at this
      exact hv (le_antisymm this (vb i hi).1)
    have e1 : clampedKnot ℝ n (q + 1) (i + 1) = clampedKnot ℝ (n - 1) q i := sh i
    have e2 : clampedKnot ℝ n (q + 1) (i + (q + 1) + 1) = clampedKnot ℝ (n - 1) q (i + q + 1) := sh (i + q + 1)
    have l1 : clampedKnot ℝ n (q + 1) (i + 1) ≤ x := by
      by_contra hc
      rw [e1] at hc
      exact hx (N_eq_zero_of_lt hm' (not_le.mp hc))
    have l2 : x ≤ clampedKnot ℝ n (q + 1) (i + (q + 1) + 1) := by
      by_contra hc
      rw [e2] at hc
      exact hx (N_eq_zero_of_ge hm' (not_le.mp hc).le)
    exact ⟨clampedQuasi_close h hD hM x h0 h1.le i (by omega) ⟨(hm (by omega)).trans l1, l2⟩,
      clampedQuasi_close h hD hM x h0 h1.le (i + 1) (by omega) ⟨l1, l2.trans (hm (by omega))⟩⟩

/-- The error is small relative to the distance from 0. -/
theorem clamped_axis (n p : Nat) (hp : 1 ≤ p) (h : p < n) (hfine : n - p ≤ 99900) (s : SplineBasis ℝ) (hs : SplineBasis.mk? n p "clamped" = .ok s)
    (D : Nat → ℝ → ℝ) (hD : Jets (Set.Icc 0 1) p D) (M : ℝ) (hM : ∀ x, 0 ≤ x → x ≤ 1 → |D (p + 1) x| ≤ M) (x : ℝ) (h0 : 0 ≤ x) (h1 : x ≤ 1) :
    |D 0 x - ∑ i ∈ range n, clampedQuasi n p D i * s.evaluate x (i : Int)| ≤ x * (2 * (M * (2 * (((p : ℝ) + 1) / ((n : ℝ) - p))) ^ (p + 1) / (p + 1).factorial) * (p * ((n : ℝ) - p))) := by
  obtain ⟨q0, -, -, qe⟩ := clamped_quasi n p hp h hfine s hs D hD M hM
  have hn : (0 : ℝ) < (n : ℝ) - p := by
    have : (p : ℝ) < n := by exact_mod_cast h
    linarith
  have hp1 : (1 : ℝ) ≤ p := by exact_mod_cast hp
  have hM0 : 0 ≤ M := (abs_nonneg _).trans (hM 0 le_rfl zero_le_one)
  obtain ⟨ε, hε⟩ : ∃ ε, ε = M * (2 * (((p : ℝ) + 1) / ((n : ℝ) - p))) ^ (p + 1) / (p + 1).factorial := ⟨_, rfl⟩
  have close := clampedQuasi_close h hD hM 0 le_rfl zero_le_one
  have qe := qe x h0 h1
  rw [← hε] at close qe ⊢
  have ε0 : 0 ≤ ε := by rw [hε]; positivity
  have P0 : 0 ≤ p * ((n : ℝ) - p) * ε * x := by positivity
  rcases le_or_gt (1 / ((n : ℝ) - p)) x with hx | hx
  · refine qe.trans ?_
    rw [div_le_iff₀ hn] at hx
    have : ε * 1 ≤ ε * (x * ((n : ℝ) - p)) := mul_le_mul_of_nonneg_left hx ε0
    have t : 0 ≤ ε * (x * ((n : ℝ) - p)) := by positivity
    nlinarith
  · have hm := monotone_clampedKnot (K := ℝ) n p h
    have kn : clampedKnot ℝ n p (p + 1) = 1 / ((n : ℝ) - p) := by
      rw [Mrx.Props.clampedKnot_elem n p 1 h (by omega), Nat.cast_sub h.le, Nat.cast_one]
    have mar := fun y => marsden_eval n p h hfine x h0 h1 y
    rw [← of_mk?_clamped h hs] at mar
    have rep : ∑ i ∈ range n, dbf (clampedKnot ℝ n p) p i 0 (fun k => D k 0) * s.evaluate x (i : Int) = (taylorP p D 0).eval x := by
      have := dbf_sum mar fun k => (Polynomial.derivative^[k] (taylorP p D 0)).eval x
      rw [← show (Polynomial.derivative^[0] (taylorP p D 0)).eval x = (taylorP p D 0).eval x from rfl, ← this]
      refine sum_congr rfl fun i _ => ?_
      rw [dbf_base _ p i _ (taylorP_natDegree p D 0) x 0]
      congr 1
      unfold dbf
      congr 1
      exact sum_congr rfl fun k hk => by beta_reduce; rw [taylorP_derivs p D 0 (Nat.lt_succ_iff.mp (mem_range.mp hk))]
    have tay := taylor_bound (convex_Icc (0 : ℝ) 1) hD (fun y hy => hM y hy.1 hy.2) (x := 0) ⟨le_rfl, zero_le_one⟩ (p + 1) le_rfl x ⟨h0, h1⟩
    rw [Nat.sub_self, sub_zero, abs_of_nonneg h0] at tay
    have tay : |D 0 x - (taylorP p D 0).eval x| ≤ M * x ^ (p + 1) / (p + 1).factorial := tay
    have t1 : M * x ^ (p + 1) / (p + 1).factorial ≤ x * ((n : ℝ) - p) * ε := by
      have k1 : x ≤ 2 * (((p : ℝ) + 1) / ((n : ℝ) - p)) := by
        refine hx.le.trans ?_
        rw [mul_div_assoc']
        exact div_le_div_of_nonneg_right (by linarith) hn.le
      have k2 : x ^ p ≤ (2 * (((p : ℝ) + 1) / ((n : ℝ) - p))) ^ p := pow_le_pow_left₀ h0 k1 p
      have k3 : (1 : ℝ) ≤ ((n : ℝ) - p) * (2 * (((p : ℝ) + 1) / ((n : ℝ) - p))) := by
        rw [show ((n : ℝ) - p) * (2 * (((p : ℝ) + 1) / ((n : ℝ) - p))) = 2 * ((p : ℝ) + 1) by field_simp]
        linarith
      have k4 : x ^ (p + 1) ≤ x * ((n : ℝ) - p) * (2 * (((p : ℝ) + 1) / ((n : ℝ) - p))) ^ (p + 1) := by
        rw [pow_succ, pow_succ]
        have : x ^ p * 1 ≤ (2 * (((p : ℝ) + 1) / ((n : ℝ) - p))) ^ p * (((n : ℝ) - p) * (2 * (((p : ℝ) + 1) / ((n : ℝ) - p)))) :=
          mul_le_mul k2 k3 zero_le_one (by positivity)
        calc x ^ p * x = x * (x ^ p * 1) := by ring
          _ ≤ x * ((2 * (((p : ℝ) + 1) / ((n : ℝ) - p))) ^ p * (((n : ℝ) - p) * (2 * (((p : ℝ) + 1) / ((n : ℝ) - p))))) := mul_le_mul_of_nonneg_left this h0
          _ = _ := by ring
      rw [hε, mul_div_assoc', mul_left_comm]
      exact div_le_div_of_nonneg_right (mul_le_mul_of_nonneg_left k4 hM0) (by positivity)
    have lin : ∑ i ∈ range n, grev n p i * s.evaluate x (i : Int) = x := by
      have := C86_greville n p hp h hfine s hs x h0 h1
      rw [← this]
      refine sum_congr rfl fun i _ => ?_
      have e := of_mk?_clamped h hs
      subst e
      unfold grev
      rw [this, sum_congr rfl fun l _ => (get_clampedList n p h (i + 1 + l)).symm]
    have t2 : |∑ i ∈ range n, (clampedQuasi n p D i - dbf (clampedKnot ℝ n p) p i 0 (fun k => D k 0)) * s.evaluate x (i : Int)| ≤ p * ((n : ℝ) - p) * ε * x := by
      refine (abs_sum_le_sum_abs _ _).trans ?_
      rw [← lin, mul_sum]
      refine sum_le_sum fun i hi => ?_
      have hi' := mem_range.mp hi
      have s0 := (C03_clamped_bounds n p h hfine s hs x h0 h1 i hi').1
      rw [lin, abs_mul, abs_of_nonneg s0, ← mul_assoc]
      by_cases hw : s.evaluate x (i : Int) = 0
      · rw [hw, mul_zero, mul_zero]
      refine mul_le_mul_of_nonneg_right ?_ s0
      rcases Nat.eq_zero_or_pos i with rfl | hpos
      · rw [q0, dbf_end _ _ _ _ _ fun l hl => clampedKnot_zero n p (0 + 1 + l) (by omega), sub_self, abs_zero]
        exact mul_nonneg (by positivity) (grev_mem n p 0 hp h).1
      · have sup := clamped_sup h hfine hs x i hi' hw
        have c := close i hi' ⟨by
          by_contra hc
          have hgt : ¬ i ≤ p := fun hle => hc (clampedKnot_zero n p i hle).le
          have := hm (show p + 1 ≤ i by omega)
          rw [kn] at this
          linarith [sup.1], (high_knot_mem n p _ h).1⟩
        refine c.trans ?_
        have g : 1 ≤ p * ((n : ℝ) - p) * grev n p i := by
          have : 1 / ((n : ℝ) - p) ≤ ∑ l ∈ range p, clampedKnot ℝ n p (i + 1 + l) := by
            refine le_trans ?_ (single_le_sum (f := fun l => clampedKnot ℝ n p (i + 1 + l)) (fun l _ => (high_knot_mem n p _ h).1) (mem_range.mpr (show p - 1 < p by omega)))
            rw [← kn]
            exact hm (by omega)
          unfold grev
          rw [show (p : ℝ) * ((n : ℝ) - p) * ((∑ l ∈ range p, clampedKnot ℝ n p (i + 1 + l)) / p) = ((n : ℝ) - p) * ∑ l ∈ range p, clampedKnot ℝ n p (i + 1 + l) by field_simp]
          calc (1 : ℝ) = ((n : ℝ) - p) * (1 / ((n : ℝ) - p)) := by field_simp
            _ ≤ _ := mul_le_mul_of_nonneg_left this hn.le
        calc ε = ε * 1 := (mul_one _).symm
          _ ≤ ε * (p * ((n : ℝ) - p) * grev n p i) := mul_le_mul_of_nonneg_left g ε0
          _ = _ := by ring
    have e : D 0 x - ∑ i ∈ range n, clampedQuasi n p D i * s.evaluate x (i : Int)
        = (D 0 x - (taylorP p D 0).eval x) - ∑ i ∈ range n, (clampedQuasi n p D i - dbf (clampedKnot ℝ n p) p i 0 (fun k => D k 0)) * s.evaluate x (i : Int) := by
      rw [← rep]
      simp only [sub_mul, sum_sub_distrib]
      ring
    rw [e]
    refine (abs_sub _ _).trans ?_
    have t3 : 0 ≤ x * ((n : ℝ) - p) * ε := by positivity
    nlinarith [tay, t1, t2]

theorem periodic_slope (n p : Nat) (hp : 1 ≤ p) (hn : 1 ≤ n) (h : p < n ∨ p = 1) (hfine : n ≤ 49975) (s : SplineBasis ℝ) (hs : SplineBasis.mk? n p "periodic" = .ok s)
    (d : DerivativeSpline ℝ) (hd : DerivativeSpline.mk? s = .ok d)
    (D : Nat → ℝ → ℝ) (hD : Jets Set.univ p D) (hper : ∀ x, D 0 (x + 1) = D 0 x) (M : ℝ) (hM : ∀ x, |D (p + 1) x| ≤ M) (x : ℝ) (h0 : 0 ≤ x) (h1 : x < 1) :
    |D 1 x - ∑ i ∈ range n, (periodicQuasi n p D ((i + 1) % n) - periodicQuasi n p D i) * d.evaluate x (i : Int)|
      ≤ 2 * (M * (2 * (((p : ℝ) + 1) / n)) ^ (p + 1) / (p + 1).factorial) * n := by
  have hn0 : (0 : ℝ) < n := by exact_mod_cast hn
  have hM0 : 0 ≤ M := (abs_nonneg _).trans (hM 0)
  have hm := (strictMono_periodicKnot (K := ℝ) n p hn).monotone
  have hm' := (strictMono_periodicKnot (K := ℝ) n (p - 1) hn).monotone
  have cper := periodicQuasi_periodic n p hn hD hper
  have sh : ∀ k, periodicKnot ℝ n p (k + 1) = periodicKnot ℝ n (p - 1) k := by
    intro k
    unfold periodicKnot
    rw [Nat.cast_sub hp]
    push_cast
    ring
  have ev : ∑ i ∈ range n, (periodicQuasi n p D ((i + 1) % n) - periodicQuasi n p D i) * d.evaluate x (i : Int)
      = ∑ i ∈ range (n + (p - 1)), (periodicQuasi n p D (i + 1) - periodicQuasi n p D i) * (n * N (periodicKnot ℝ n (p - 1)) (p - 1) i x) := by
    have := sum_periodic n (p - 1) (by omega) hn hfine (fun i => (periodicQuasi n p D ((i + 1) % n) - periodicQuasi n p D i) * n) x
    rw [sum_congr rfl fun i hi => by
      rw [deriv_periodic_eq n p hp hn h hfine s hs d hd x i (mem_range.mp hi), ← mul_assoc], this]
    refine sum_congr rfl fun i _ => ?_
    beta_reduce
    rw [Function.Periodic.map_mod_nat cper, Function.Periodic.map_mod_nat cper, mul_assoc]
    congr 2
    have := Function.Periodic.map_mod_nat cper (i % n + 1)
    rw [← this, Nat.mod_add_mod, Function.Periodic.map_mod_nat cper]
  rw [ev]
  have le0 : periodicKnot ℝ n (p - 1) (p - 1) ≤ x := by rw [periodicKnot_p]; exact h0
  have le1 : x < periodicKnot ℝ n (p - 1) (n + (p - 1)) := by
    rw [periodicKnot_add n (p - 1) (p - 1) hn, periodicKnot_p]
    linarith
  have st := periodicKnot_plus n p hn
  obtain ⟨q, rfl⟩ : ∃ q, p = q + 1 := ⟨p - 1, by omega⟩
  rw [Nat.add_sub_cancel] at *
  refine slope_error (q := q) (τ := periodicKnot ℝ n (q + 1)) sh (w := fun i => N (periodicKnot ℝ n q) q i x) (fun i hi => mul_nonneg hn0.le (N_nonneg hm' _ _ _)) ?_ (by positivity) (fun i hi => ?_)
    (fun y => marsden hm' le0 le1 y) _ (fun i hi hv => ?_)
  · rw [← mul_sum, N_sum hm' le0 le1, mul_one]
  · rw [show i + 1 + 1 + q = i + 1 + (q + 1) by omega, st (i + 1) (q + 1)]
    have : ((q : ℝ) + 1) ≠ 0 := by positivity
    push_cast
    field_simp
    ring
  · have hx : N (periodicKnot ℝ n q) q i x ≠ 0 := fun hc => hv (by rw [hc, mul_zero])
    have e1 : periodicKnot ℝ n (q + 1) (i + 1) = periodicKnot ℝ n q i := sh i
    have e2 : periodicKnot ℝ n (q + 1) (i + (q + 1) + 1) = periodicKnot ℝ n q (i + q + 1) := sh (i + q + 1)
    have l1 : periodicKnot ℝ n (q + 1) (i + 1) ≤ x := by
      by_contra hc
      rw [e1] at hc
      exact hx (N_eq_zero_of_lt hm' (not_le.mp hc))
    have l2 : x ≤ periodicKnot ℝ n (q + 1) (i + (q + 1) + 1) := by
      by_contra hc
      rw [e2] at hc
      exact hx (N_eq_zero_of_ge hm' (not_le.mp hc).le)
    exact ⟨periodicQuasi_close hn hD hM x i ⟨(hm (by omega)).trans l1, l2⟩, periodicQuasi_close hn hD hM x (i + 1) ⟨l1, l2.trans (hm (by omega))⟩⟩

theorem SmoothDir.nonneg {p : Nat} {ty : String} {D : Nat → ℝ → ℝ} {M : ℝ} (hD : SmoothDir ty p D M) : 0 ≤ M := by
  rcases hD with ⟨_, _, d⟩ | ⟨_, _, _, d⟩ | ⟨_, _, d, _⟩
  · exact (abs_nonneg _).trans (d 0 le_rfl zero_le_one)
  · exact (abs_nonneg _).trans (d 0)
  · exact d

theorem slopeOrder_nonneg {n p q : Nat} {ty : String} (h : DirOK n p q ty) {D : Nat → ℝ → ℝ} {M : ℝ} (hD : SmoothDir ty p D M) : 0 ≤ slopeOrder n p ty M := by
  have f := fullOrder_nonneg h hD
  unfold slopeOrder
  split_ifs with h1
  · rcases h with ⟨_, _, b, _⟩ | ⟨e, _⟩ | ⟨e, _⟩
    · have : (p : ℝ) < n := by exact_mod_cast b
      have h2 : (0 : ℝ) < (n : ℝ) - p := by linarith
      positivity
    · rw [h1] at e; exact absurd e (by decide)
    · rw [h1] at e; exact absurd e (by decide)
  · positivity
  · exact le_rfl

/-- A constant function has derivative zero. -/
theorem SmoothDir.flat {p : Nat} {ty : String} {D : Nat → ℝ → ℝ} {M : ℝ} (hD : SmoothDir ty p D M) (h : ∀ x, D 0 x = D 0 0) (x : ℝ) (h0 : 0 ≤ x) (h1 : x ≤ 1) : D 1 x = 0 := by
  have e : D 0 = fun _ => D 0 0 := funext h
  rcases hD with ⟨_, d, _⟩ | ⟨_, d, _⟩ | ⟨_, d, _⟩
  · have k := d 0 (Nat.zero_le _) x ⟨h0, h1⟩
    rw [e] at k
    exact (uniqueDiffOn_Icc zero_lt_one x ⟨h0, h1⟩).eq_deriv _ k (hasDerivWithinAt_const _ _ _)
  · have k := hasDerivWithinAt_univ.mp (d 0 (Nat.zero_le _) x (Set.mem_univ _))
    rw [e] at k
    exact k.unique (hasDerivAt_const _ _)
  · have k := hasDerivWithinAt_univ.mp (d 0 (Nat.zero_le _) x (Set.mem_univ _))
    rw [e] at k
    exact k.unique (hasDerivAt_const _ _)

/-- A clamped function that vanishes at 0. -/
theorem SmoothDir.linear {p : Nat} {D : Nat → ℝ → ℝ} {M B : ℝ} (hD : SmoothDir "clamped" p D M) (h : D 0 0 = 0) (hB : ∀ x, 0 ≤ x → x ≤ 1 → |D 1 x| ≤ B) (x : ℝ) (h0 : 0 ≤ x) (h1 : x ≤ 1) :
    |D 0 x| ≤ x * B := by
  rcases hD with ⟨_, d, _⟩ | ⟨e, _⟩ | ⟨e, _⟩
  · have := growth (convex_Icc (0 : ℝ) 1) (f := D 0) (f' := D 1) (x := 0) (a := x) (M := B) (m := 0) ⟨le_rfl, zero_le_one⟩ ⟨h0, h1⟩ (fun y hy => d 0 (Nat.zero_le _) y hy) h fun y hy => by
      simpa using hB y hy.1 hy.2
    rw [sub_zero, abs_of_nonneg h0] at this
    simpa [mul_comm] using this
  · exact absurd e (by decide)
  · exact absurd e (by decide)

/-- The coefficients of one direction. -/
theorem dir_slope {n p q : Nat} {ty : String} (h : DirOK n p q ty) {s : SplineBasis ℝ} (hs : SplineBasis.mk? n p ty = .ok s) {d : DerivativeSpline ℝ} (hd : DerivativeSpline.mk? s = .ok d)
    {D : Nat → ℝ → ℝ} {M : ℝ} (hD : SmoothDir ty p D M) :
    ∃ c : Nat → ℝ, (ty = "clamped" → c 0 = D 0 0 ∧ c (n - 1) = D 0 1 ∧ (3 ≤ n → c 1 = D 0 0 + D 1 0 / (p * ((n : ℝ) - p)))) ∧
      (ty = "periodic" → FirstHarmonic (D 0) → ∃ A B : ℝ, ∀ j, c j = A * Real.cos (ang n j) + B * Real.sin (ang n j)) ∧
      (∀ x, 0 ≤ x → x ≤ 1 → |D 0 x - ∑ i ∈ range n, c i * s.evaluate x (i : Int)| ≤ fullOrder n p ty M) ∧
      (ty = "clamped" → ∀ x, 0 ≤ x → x ≤ 1 → |D 0 x - ∑ i ∈ range n, c i * s.evaluate x (i : Int)| ≤ x * slopeOrder n p ty M) ∧
      ∀ x, 0 ≤ x → x < 1 → |D 1 x - ∑ i ∈ range (Form.dsize n ty), (c ((i + 1) % n) - c i) * d.evaluate x (i : Int)| ≤ slopeOrder n p ty M := by
  have U := DirOK.unity h
  have hD' := hD
  rcases h with ⟨rfl, a, b, c, _⟩ | ⟨rfl, a, b, c, e, _⟩ | ⟨rfl, rfl, _⟩
  · have so : slopeOrder n p "clamped" M = 2 * (M * (2 * (((p : ℝ) + 1) / ((n : ℝ) - p))) ^ (p + 1) / (p + 1).factorial) * (p * ((n : ℝ) - p)) := by
      unfold slopeOrder fullOrder
      rw [if_pos rfl, if_pos rfl]
      ring
    rcases hD with ⟨_, d1, d2⟩ | ⟨e, _⟩ | ⟨e, _⟩
    · obtain ⟨k0, k1, k2, k3⟩ := clamped_quasi n p a b c s hs D d1 M d2
      refine ⟨clampedQuasi n p D, fun _ => ⟨k0, k1, k2⟩, fun e => absurd e (by decide), ?_, fun _ x h0 h1 => ?_, fun x h0 h1 => ?_⟩
      · unfold fullOrder
        rw [if_pos rfl]
        exact k3
      · rw [so]
        exact clamped_axis n p a b c s hs D d1 M d2 x h0 h1
      · rw [so]
        have := clamped_slope n p a b c s hs d hd D d1 M d2 x h0 h1
        rw [show Form.dsize n "clamped" = n - 1 from rfl, sum_congr rfl fun i hi => by rw [Nat.mod_eq_of_lt (by have := mem_range.mp hi; omega : i + 1 < n)]]
        exact this
    · exact absurd e (by decide)
    · exact absurd e (by decide)
  · have so : slopeOrder n p "periodic" M = 2 * (M * (2 * (((p : ℝ) + 1) / n)) ^ (p + 1) / (p + 1).factorial) * n := by
      unfold slopeOrder fullOrder
      rw [if_neg (by decide), if_pos rfl, if_neg (by decide), if_pos rfl]
      ring
    rcases hD with ⟨e, _⟩ | ⟨_, d1, d2, d3⟩ | ⟨e, _⟩
    · exact absurd e (by decide)
    · obtain ⟨k0, k1⟩ := periodic_quasi n p a c b e s hs D d1 d2 M d3
      refine ⟨periodicQuasi n p D, fun e => absurd e (by decide), fun _ => k0, ?_, fun e => absurd e (by decide), fun x h0 h1 => ?_⟩
      · unfold fullOrder
        rw [if_neg (by decide), if_pos rfl]
        exact k1
      · rw [so]
        exact periodic_slope n p a c b e s hs d hd D d1 d2 M d3 x h0 h1
    · exact absurd e (by decide)
  · rcases hD with ⟨e, _⟩ | ⟨e, _⟩ | ⟨_, _, _, dd⟩
    · exact absurd e (by decide)
    · exact absurd e (by decide)
    · refine ⟨fun _ => D 0 0, fun e => absurd e (by decide), fun e => absurd e (by decide), fun x h0 h1 => ?_, fun e => absurd e (by decide), fun x h0 h1 => ?_⟩
      · rw [← mul_sum, U.sum hs x h0 h1, mul_one, dd x, sub_self, abs_zero]
        unfold fullOrder
        rw [if_neg (by decide), if_neg (by decide)]
      · rw [SmoothDir.flat hD' dd x h0 h1.le]
        unfold slopeOrder
        rw [if_neg (by decide), if_neg (by decide)]
        simp

/-! ## Products -/

section Forms
variable {ns ps : Nat × Nat × Nat} {q : Nat} {types : String × String × String} {F : V3 → V3} {polar dirichlet : Bool} {D : DeRham}

/-- The gradient of three-index coefficients. -/
noncomputable def tensorGrad (D : DeRham) (ns : Nat × Nat × Nat) (types : String × String × String) (C : Nat → Nat → Nat → ℝ) (x : ℝ × ℝ × ℝ) : Fin 3 → ℝ :=
  ![∑ i ∈ range (Form.dsize ns.1 types.1), ∑ j ∈ range ns.2.1, ∑ l ∈ range ns.2.2,
      (C ((i + 1) % ns.1) j l - C i j l) * (D.S.L0.dΛ0.evaluate x.1 i * D.S.L0.Λ1.evaluate x.2.1 j * D.S.L0.Λ2.evaluate x.2.2 l),
    ∑ i ∈ range ns.1, ∑ j ∈ range (Form.dsize ns.2.1 types.2.1), ∑ l ∈ range ns.2.2,
      (C i ((j + 1) % ns.2.1) l - C i j l) * (D.S.L0.Λ0.evaluate x.1 i * D.S.L0.dΛ1.evaluate x.2.1 j * D.S.L0.Λ2.evaluate x.2.2 l),
    ∑ i ∈ range ns.1, ∑ j ∈ range ns.2.1, ∑ l ∈ range (Form.dsize ns.2.2 types.2.2),
      (C i j ((l + 1) % ns.2.2) - C i j l) * (D.S.L0.Λ0.evaluate x.1 i * D.S.L0.Λ1.evaluate x.2.1 j * D.S.L0.dΛ2.evaluate x.2.2 l)]

theorem tensor_split {n m k : Nat} (a b c A B C : Nat → ℝ) :
    ∑ i ∈ range n, ∑ j ∈ range m, ∑ l ∈ range k, a i * b j * c l * (A i * B j * C l) = (∑ i ∈ range n, a i * A i) * (∑ j ∈ range m, b j * B j) * ∑ l ∈ range k, c l * C l := by
  rw [sum_mul_sum, sum_mul]
  refine sum_congr rfl fun i _ => ?_
  rw [sum_mul]
  refine sum_congr rfl fun j _ => ?_
  rw [mul_sum]
  exact sum_congr rfl fun l _ => by ring

/-- The discrete gradient of a discrete function with given coefficients. -/
theorem strongGrad_tensor (h : Admissible ns ps q types F polar dirichlet D) (hc : Compatible ns types dirichlet) (C : Nat → Nat → Nat → ℝ) (u : Fin D.m0 → ℝ)
    (hu : ∀ i < ns.1, ∀ j < ns.2.1, ∀ l < ns.2.2, coef D.S.L0.dims (D.E0ᵀ *ᵥ u) 0 i j l = C i j l) (x : ℝ × ℝ × ℝ) (c : Fin 3) :
    D.form1 (D.strongGrad *ᵥ u) (toV3 x) c = tensorGrad D ns types C x c := by
  obtain ⟨m0, m1, _, _, hQ⟩ := Seq.mk?_inv (Admissible.seq h.built)
  obtain ⟨hk, hd0, s0, s1, s2, d0, d1, d2⟩ := Form.mk?_inv m0
  obtain ⟨hk1, hd1, s0', s1', s2', d0', d1', d2'⟩ := Form.mk?_inv m1
  have k0 : D.S.L0.dims.k = 0 := by rw [hd0]
  have k1 : D.S.L1.dims.k = 1 := by rw [hd1]
  have hlen : D.S.L1.dims.shape.length = 3 := by simp [Dims.shape, k1]
  have E0 : D.S.L1.Λ0 = D.S.L0.Λ0 := Except.ok.inj (s0'.symm.trans s0)
  have E1 : D.S.L1.Λ1 = D.S.L0.Λ1 := Except.ok.inj (s1'.symm.trans s1)
  have E2 : D.S.L1.Λ2 = D.S.L0.Λ2 := Except.ok.inj (s2'.symm.trans s2)
  rw [E0] at d0'
  rw [E1] at d1'
  rw [E2] at d2'
  have G0 : D.S.L1.dΛ0 = D.S.L0.dΛ0 := Except.ok.inj (d0'.symm.trans d0)
  have G1 : D.S.L1.dΛ1 = D.S.L0.dΛ1 := Except.ok.inj (d1'.symm.trans d1)
  have G2 : D.S.L1.dΛ2 = D.S.L0.dΛ2 := Except.ok.inj (d2'.symm.trans d2)
  have hinc := (C76_operators_are_incidence h hc).1 u
  have nr : D.S.L0.dims.nr = ns.1 := by rw [hd0]
  have nt : D.S.L0.dims.nt = ns.2.1 := by rw [hd0]
  have nz : D.S.L0.dims.nz = ns.2.2 := by rw [hd0]
  have p0 : 0 < ns.1 := by rcases h.r with ⟨_, a, b, _⟩ | ⟨_, _, _, a, _⟩ | ⟨_, a, _⟩ <;> omega
  have p1 : 0 < ns.2.1 := by rcases h.t with ⟨_, a, b, _⟩ | ⟨_, _, _, a, _⟩ | ⟨_, a, _⟩ <;> omega
  have p2 : 0 < ns.2.2 := by rcases h.z with ⟨_, a, b, _⟩ | ⟨_, _, _, a, _⟩ | ⟨_, a, _⟩ <;> omega
  have le0 : Form.dsize ns.1 types.1 ≤ ns.1 := by unfold Form.dsize; split_ifs <;> omega
  have le1 : Form.dsize ns.2.1 types.2.1 ≤ ns.2.1 := by unfold Form.dsize; split_ifs <;> omega
  have le2 : Form.dsize ns.2.2 types.2.2 ≤ ns.2.2 := by unfold Form.dsize; split_ifs <;> omega
  have val : ∀ c : Fin 3, D.form1 (D.strongGrad *ᵥ u) (toV3 x) c = ∑ i ∈ range (D.S.L1.dims.cshape c).1, ∑ j ∈ range (D.S.L1.dims.cshape c).2.1,
      ∑ l ∈ range (D.S.L1.dims.cshape c).2.2, extDeriv D.S.L0.dims (coef D.S.L0.dims (D.E0ᵀ *ᵥ u)) c i j l * basisValue D.S.L1 c x i j l := by
    intro c
    unfold form1
    rw [fromV3_toV3, discreteFunction_eq_sum _ (Form.mk?_wf m1) _ _ x c (by rw [hlen]; exact c.isLt)]
    exact sum_congr rfl fun i hi => sum_congr rfl fun j hj => sum_congr rfl fun l hl => by
      rw [hinc c i j l ⟨mem_range.mp hi, mem_range.mp hj, mem_range.mp hl⟩]
  rw [val c]
  fin_cases c
  · have cs : D.S.L1.dims.cshape 0 = (Form.dsize ns.1 types.1, ns.2.1, ns.2.2) := by
      simp only [Dims.cshape, Dims.shape, k1]
      rw [hd1]
      rfl
    change ∑ i ∈ range (D.S.L1.dims.cshape 0).1, ∑ j ∈ range (D.S.L1.dims.cshape 0).2.1, ∑ l ∈ range (D.S.L1.dims.cshape 0).2.2,
      extDeriv D.S.L0.dims (coef D.S.L0.dims (D.E0ᵀ *ᵥ u)) 0 i j l * basisValue D.S.L1 0 x i j l = _
    rw [cs]
    refine sum_congr rfl fun i hi => sum_congr rfl fun j hj => sum_congr rfl fun l hl => ?_
    have hi' := mem_range.mp hi
    have hj' := mem_range.mp hj
    have hl' := mem_range.mp hl
    unfold extDeriv Δr
    rw [if_pos k0, if_pos rfl, nr, hu _ (Nat.mod_lt _ p0) j hj' l hl', hu i (by omega) j hj' l hl']
    simp only [basisValue, factor, k1, isDeriv, E0, E1, E2, G0, G1, G2]
    simp
  · have cs : D.S.L1.dims.cshape 1 = (ns.1, Form.dsize ns.2.1 types.2.1, ns.2.2) := by
      simp only [Dims.cshape, Dims.shape, k1]
      rw [hd1]
      rfl
    change ∑ i ∈ range (D.S.L1.dims.cshape 1).1, ∑ j ∈ range (D.S.L1.dims.cshape 1).2.1, ∑ l ∈ range (D.S.L1.dims.cshape 1).2.2,
      extDeriv D.S.L0.dims (coef D.S.L0.dims (D.E0ᵀ *ᵥ u)) 1 i j l * basisValue D.S.L1 1 x i j l = _
    rw [cs]
    refine sum_congr rfl fun i hi => sum_congr rfl fun j hj => sum_congr rfl fun l hl => ?_
    have hi' := mem_range.mp hi
    have hj' := mem_range.mp hj
    have hl' := mem_range.mp hl
    unfold extDeriv Δt
    rw [if_pos k0, if_neg (by norm_num), if_pos rfl, nt, hu i hi' _ (Nat.mod_lt _ p1) l hl', hu i hi' j (by omega) l hl']
    simp only [basisValue, factor, k1, isDeriv, E0, E1, E2, G0, G1, G2]
    simp
  · have cs : D.S.L1.dims.cshape 2 = (ns.1, ns.2.1, Form.dsize ns.2.2 types.2.2) := by
      simp only [Dims.cshape, Dims.shape, k1]
      rw [hd1]
      rfl
    change ∑ i ∈ range (D.S.L1.dims.cshape 2).1, ∑ j ∈ range (D.S.L1.dims.cshape 2).2.1, ∑ l ∈ range (D.S.L1.dims.cshape 2).2.2,
      extDeriv D.S.L0.dims (coef D.S.L0.dims (D.E0ᵀ *ᵥ u)) 2 i j l * basisValue D.S.L1 2 x i j l = _
    rw [cs]
    refine sum_congr rfl fun i hi => sum_congr rfl fun j hj => sum_congr rfl fun l hl => ?_
    have hi' := mem_range.mp hi
    have hj' := mem_range.mp hj
    have hl' := mem_range.mp hl
    unfold extDeriv Δz
    rw [if_pos k0, if_neg (by norm_num), if_neg (by norm_num), nz, hu i hi' j hj' _ (Nat.mod_lt _ p2), hu i hi' j hj' l (by omega)]
    simp only [basisValue, factor, k1, isDeriv, E0, E1, E2, G0, G1, G2]
    simp

end Forms

end Mrx.Props
