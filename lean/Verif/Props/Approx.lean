import Verif.Spec.Approx
import Verif.Props.Reproduce

/-!
# C100: discrete functions approximate continuous ones, with explicit bounds

The Schoenberg operator (coefficients = values at the Greville points) in one dimension, of first and of
second order; discrete 0-forms of all sequences; the L2 projection.
-/

set_option linter.unusedSectionVars false
set_option linter.unusedVariables false

namespace Mrx.Props
open Finset Mrx.Spec Mrx Matrix DeRham Quad

/-- A convex combination of numbers within `ε` of `F` is within `ε` of `F`. -/
theorem convex_close {n : Nat} {w : Nat → ℝ} (hw : ∀ i < n, 0 ≤ w i) (h1 : ∑ i ∈ range n, w i = 1) (c : Nat → ℝ) (a ε : ℝ)
    (hc : ∀ i < n, w i ≠ 0 → |a - c i| ≤ ε) : |a - ∑ i ∈ range n, c i * w i| ≤ ε := by
  have e : a - ∑ i ∈ range n, c i * w i = ∑ i ∈ range n, (a - c i) * w i := by
    simp only [sub_mul, sum_sub_distrib, ← mul_sum, h1, mul_one]
  rw [e]
  refine (abs_sum_le_sum_abs _ _).trans ?_
  calc ∑ i ∈ range n, |(a - c i) * w i| ≤ ∑ i ∈ range n, ε * w i := by
        refine sum_le_sum fun i hi => ?_
        rw [abs_mul, abs_of_nonneg (hw i (mem_range.mp hi))]
        by_cases h : w i = 0
        · rw [h, mul_zero, mul_zero]
        · exact mul_le_mul_of_nonneg_right (hc i (mem_range.mp hi) h) (hw i (mem_range.mp hi))
    _ = ε := by rw [← mul_sum, h1, mul_one]

/-! ## Clamped: Greville points -/

/-- Greville point of spline `i`: the mean of its `p` inner knots. -/
noncomputable def grev (n p i : Nat) : ℝ := (∑ l ∈ range p, clampedKnot ℝ n p (i + 1 + l)) / p

theorem clampedKnot_step (n p k m : Nat) (h : p < n) : clampedKnot ℝ n p (k + m) - clampedKnot ℝ n p k ≤ m / ((n : ℝ) - p) := by
  have hn : (0 : ℝ) < (n : ℝ) - p := by have : (p : ℝ) < n := by exact_mod_cast h
                                        linarith
  induction m with
  | zero => simp
  | succ m ih =>
    have : clampedKnot ℝ n p (k + m + 1) - clampedKnot ℝ n p (k + m) ≤ 1 / ((n : ℝ) - p) := by
      generalize k + m = j
      have hc : ((n - p : Nat) : ℝ) = (n : ℝ) - p := by rw [Nat.cast_sub h.le]
      unfold clampedKnot
      rw [hc]
      split_ifs with a b c d e <;> try omega
      · rw [sub_zero]; positivity
      · have : n = p + 1 := by omega
        subst this
        push_cast
        simp
      · rw [sub_self]; positivity
      · have : n = j + 1 := by omega
        subst this
        have h2 : ((j - p : Nat) : ℝ) = (j : ℝ) - p := by rw [Nat.cast_sub (by omega)]
        rw [h2]
        push_cast at hn ⊢
        rw [sub_le_iff_le_add, ← add_div, le_div_iff₀ hn]
        linarith
      · rw [sub_zero]
        have : j + 1 - p = 1 := by omega
        rw [this, Nat.cast_one]
      · have h2 : ((j - p : Nat) : ℝ) = (j : ℝ) - p := by rw [Nat.cast_sub (by omega)]
        have h3 : ((j + 1 - p : Nat) : ℝ) = (j : ℝ) + 1 - p := by rw [Nat.cast_sub (by omega)]; push_cast; ring
        rw [h2, h3, ← sub_div]
        refine div_le_div_of_nonneg_right ?_ hn.le
        linarith
    calc clampedKnot ℝ n p (k + (m + 1)) - clampedKnot ℝ n p k
        = (clampedKnot ℝ n p (k + m + 1) - clampedKnot ℝ n p (k + m)) + (clampedKnot ℝ n p (k + m) - clampedKnot ℝ n p k) := by ring_nf
      _ ≤ 1 / ((n : ℝ) - p) + m / ((n : ℝ) - p) := add_le_add this ih
      _ = _ := by rw [← add_div]; push_cast; ring

theorem sum_half (p : Nat) : ∑ l ∈ range p, ((l : ℝ) + 1) = p * (p + 1) / 2 := by
  induction p with
  | zero => simp
  | succ p ih => rw [sum_range_succ, ih]; push_cast; ring

theorem sum_half' (p : Nat) : ∑ l ∈ range p, ((p : ℝ) - l) = p * (p + 1) / 2 := by
  have := sum_half p
  rw [sum_add_distrib] at this
  rw [sum_sub_distrib]
  simp only [sum_const, card_range, nsmul_eq_mul, mul_one] at this ⊢
  linarith

theorem mean_ge {p : Nat} (hp : 1 ≤ p) (t : Nat → ℝ) (a : ℝ) (h : ∀ l < p, a ≤ t l) : a ≤ (∑ l ∈ range p, t l) / p := by
  have hp0 : (0 : ℝ) < p := by exact_mod_cast hp
  rw [le_div_iff₀ hp0]
  calc a * p = ∑ l ∈ range p, a := by simp [mul_comm]
    _ ≤ _ := sum_le_sum fun l hl => h l (mem_range.mp hl)

theorem mean_le {p : Nat} (hp : 1 ≤ p) (t : Nat → ℝ) (a : ℝ) (h : ∀ l < p, t l ≤ a) : (∑ l ∈ range p, t l) / p ≤ a := by
  have hp0 : (0 : ℝ) < p := by exact_mod_cast hp
  rw [div_le_iff₀ hp0]
  calc _ ≤ ∑ l ∈ range p, a := sum_le_sum fun l hl => h l (mem_range.mp hl)
    _ = a * p := by simp [mul_comm]

theorem grev_mem (n p i : Nat) (hp : 1 ≤ p) (h : p < n) : 0 ≤ grev n p i ∧ grev n p i ≤ 1 := by
  refine ⟨mean_ge hp _ _ fun l _ => ?_, mean_le hp _ _ fun l _ => clampedKnot_le_one n p _ h⟩
  have := monotone_clampedKnot (K := ℝ) n p h (Nat.zero_le (i + 1 + l))
  rwa [clampedKnot_zero n p 0 (Nat.zero_le _)] at this

theorem grev_ends (n p : Nat) (hp : 1 ≤ p) (h : p < n) : grev n p 0 = 0 ∧ grev n p (n - 1) = 1 := by
  have hp0 : (p : ℝ) ≠ 0 := by exact_mod_cast (show p ≠ 0 by omega)
  unfold grev
  constructor
  · rw [sum_eq_zero fun l hl => clampedKnot_zero n p _ (by have := mem_range.mp hl; omega), zero_div]
  · rw [sum_congr rfl fun l hl => clampedKnot_one n p _ (by omega) h]
    simp [hp0]

/-- A support point of a clamped spline is near its Greville point. -/
theorem grev_near' (n p : Nat) (hp : 1 ≤ p) (h : p < n) (x : ℝ) (i : Nat)
    (sup : clampedKnot ℝ n p i ≤ x ∧ x ≤ clampedKnot ℝ n p (i + p + 1)) :
    |x - grev n p i| ≤ ((p : ℝ) + 1) / (2 * ((n : ℝ) - p)) := by
  have hp0 : (0 : ℝ) < p := by exact_mod_cast hp
  have hn : (0 : ℝ) < (n : ℝ) - p := by have : (p : ℝ) < n := by exact_mod_cast h
                                        linarith
  have hp' := hp0.ne'
  have hn' := hn.ne'
  have e : ∀ a : ℝ, a - grev n p i = (∑ l ∈ range p, (a - clampedKnot ℝ n p (i + 1 + l))) / p := by
    intro a
    unfold grev
    rw [sum_sub_distrib]
    simp only [sum_const, card_range, nsmul_eq_mul]
    field_simp
  have up : clampedKnot ℝ n p (i + p + 1) - grev n p i ≤ ((p : ℝ) + 1) / (2 * ((n : ℝ) - p)) := by
    rw [e, div_le_iff₀ hp0]
    calc _ ≤ ∑ l ∈ range p, ((p : ℝ) - l) / ((n : ℝ) - p) := by
          refine sum_le_sum fun l hl => ?_
          have hl' := mem_range.mp hl
          have := clampedKnot_step n p (i + 1 + l) (p - l) h
          rwa [show i + 1 + l + (p - l) = i + p + 1 by omega, Nat.cast_sub hl'.le] at this
      _ = _ := by rw [← sum_div, sum_half']; field_simp
  have dn : grev n p i - clampedKnot ℝ n p i ≤ ((p : ℝ) + 1) / (2 * ((n : ℝ) - p)) := by
    have e2 := e (clampedKnot ℝ n p i)
    have : grev n p i - clampedKnot ℝ n p i = (∑ l ∈ range p, (clampedKnot ℝ n p (i + 1 + l) - clampedKnot ℝ n p i)) / p := by
      rw [← neg_sub, e2, ← neg_div, ← sum_neg_distrib]
      congr 1
      exact sum_congr rfl fun l _ => by ring
    rw [this, div_le_iff₀ hp0]
    calc _ ≤ ∑ l ∈ range p, ((l : ℝ) + 1) / ((n : ℝ) - p) := by
          refine sum_le_sum fun l hl => ?_
          have := clampedKnot_step n p i (l + 1) h
          rwa [show i + (l + 1) = i + 1 + l by omega, Nat.cast_add, Nat.cast_one] at this
      _ = _ := by rw [← sum_div, sum_half]; field_simp
  rw [abs_le]
  constructor <;> linarith [sup.1, sup.2]

/-- A clamped spline is not zero only near its Greville point. -/
theorem grev_near (n p : Nat) (hp : 1 ≤ p) (h : p < n) (hfine : n - p ≤ 99900) {s : SplineBasis ℝ}
    (hs : SplineBasis.mk? n p "clamped" = .ok s) (x : ℝ) (i : Nat) (hi : i < n) (hx : s.evaluate x (i : Int) ≠ 0) :
    |x - grev n p i| ≤ ((p : ℝ) + 1) / (2 * ((n : ℝ) - p)) := by
  refine grev_near' n p hp h x i ?_
  by_contra hc
  refine hx (C04_clamped_support n p h hfine s hs x i hi ?_)
  rw [of_mk?_clamped h hs]
  dsimp only
  rw [get_clampedList n p h, get_clampedList n p h]
  by_contra hd
  push Not at hd
  exact hc hd

/-- **C100** First order, clamped: if `f` varies by at most `ε` over half a spline support (`p + 1` half
elements) then some clamped spline function with the end values of `f` is within `ε` of `f` on all of `[0,1]`. -/
theorem C100_clamped_first_order (n p : Nat) (hp : 1 ≤ p) (h : p < n) (hfine : n - p ≤ 99900)
    (s : SplineBasis ℝ) (hs : SplineBasis.mk? n p "clamped" = .ok s) (f : ℝ → ℝ) (ε : ℝ)
    (hf : ∀ x y, 0 ≤ x → x ≤ 1 → 0 ≤ y → y ≤ 1 → |x - y| ≤ ((p : ℝ) + 1) / (2 * ((n : ℝ) - p)) → |f x - f y| ≤ ε) :
    ∃ c : Nat → ℝ, c 0 = f 0 ∧ c (n - 1) = f 1 ∧
      ∀ x, 0 ≤ x → x ≤ 1 → |f x - ∑ i ∈ range n, c i * s.evaluate x (i : Int)| ≤ ε := by
  refine ⟨fun i => f (grev n p i), by beta_reduce; rw [(grev_ends n p hp h).1], by beta_reduce; rw [(grev_ends n p hp h).2], fun x h0 h1 => ?_⟩
  refine convex_close (fun i hi => (C03_clamped_bounds n p h hfine s hs x h0 h1 i hi).1) (C01_clamped_partition_of_unity n p h hfine s hs x h0 h1) _ _ _ ?_
  intro i hi hne
  exact hf x _ h0 h1 (grev_mem n p i hp h).1 (grev_mem n p i hp h).2 (grev_near n p hp h hfine hs x i hi hne)

/-- Case: 52 clamped splines of degree 2 and `f x = x ^ 2`. -/
example : ∃ s : SplineBasis ℝ, SplineBasis.mk? 52 2 "clamped" = .ok s ∧ ∃ c : Nat → ℝ, c 0 = 0 ∧ c 51 = 1 ∧
    ∀ x, 0 ≤ x → x ≤ 1 → |x ^ 2 - ∑ i ∈ range 52, c i * s.evaluate x (i : Int)| ≤ 6 / 100 := by
  obtain ⟨s, hs⟩ : ∃ s : SplineBasis ℝ, SplineBasis.mk? 52 2 "clamped" = .ok s := ⟨_, rfl⟩
  obtain ⟨c, h0, h1, hc⟩ := C100_clamped_first_order 52 2 (by norm_num) (by norm_num) (by norm_num) s hs (fun x => x ^ 2) (6 / 100) (by
    intro x y x0 x1 y0 y1 hd
    norm_num at hd
    rw [show x ^ 2 - y ^ 2 = (x - y) * (x + y) by ring, abs_mul, abs_of_nonneg (show 0 ≤ x + y by linarith)]
    have := abs_nonneg (x - y)
    nlinarith)
  exact ⟨s, hs, c, by simpa using h0, by simpa using h1, hc⟩

/-- **C100** Second order, clamped: if `f` differs from its tangent lines by at most `M/2 (x - y)²` (e.g. `|f''| ≤ M`)
the error is at most `M/2` times the square of half the support width; for convex `f` the approximation lies above `f`. -/
theorem C100_clamped_second_order (n p : Nat) (hp : 1 ≤ p) (h : p < n) (hfine : n - p ≤ 99900)
    (s : SplineBasis ℝ) (hs : SplineBasis.mk? n p "clamped" = .ok s) (f g : ℝ → ℝ) :
    ∃ c : Nat → ℝ, c 0 = f 0 ∧ c (n - 1) = f 1 ∧
      (∀ M, (∀ x y, 0 ≤ x → x ≤ 1 → 0 ≤ y → y ≤ 1 → |f y - f x - g x * (y - x)| ≤ M / 2 * (y - x) ^ 2) → 0 ≤ M →
        ∀ x, 0 ≤ x → x ≤ 1 → |f x - ∑ i ∈ range n, c i * s.evaluate x (i : Int)| ≤ M / 2 * (((p : ℝ) + 1) / (2 * ((n : ℝ) - p))) ^ 2) ∧
      ((∀ x y, 0 ≤ x → x ≤ 1 → 0 ≤ y → y ≤ 1 → f x + g x * (y - x) ≤ f y) →
        ∀ x, 0 ≤ x → x ≤ 1 → f x ≤ ∑ i ∈ range n, c i * s.evaluate x (i : Int)) := by
  refine ⟨fun i => f (grev n p i), by beta_reduce; rw [(grev_ends n p hp h).1], by beta_reduce; rw [(grev_ends n p hp h).2], ?_, ?_⟩
  all_goals
    have unity := fun x h0 h1 => C01_clamped_partition_of_unity n p h hfine s hs x h0 h1
    have lin : ∀ x, 0 ≤ x → x ≤ 1 → ∑ i ∈ range n, grev n p i * s.evaluate x (i : Int) = x := by
      intro x h0 h1
      have := C86_greville n p hp h hfine s hs x h0 h1
      rw [← this]
      refine sum_congr rfl fun i _ => ?_
      have e := of_mk?_clamped h hs
      subst e
      unfold grev
      rw [this, sum_congr rfl fun l _ => (get_clampedList n p h (i + 1 + l)).symm]
    have lin' : ∀ x, 0 ≤ x → x ≤ 1 → ∑ i ∈ range n, (f x + g x * (grev n p i - x)) * s.evaluate x (i : Int) = f x := by
      intro x h0 h1
      have e : ∀ i, (f x + g x * (grev n p i - x)) * s.evaluate x (i : Int)
          = (f x - g x * x) * s.evaluate x (i : Int) + g x * (grev n p i * s.evaluate x (i : Int)) := fun i => by ring
      rw [sum_congr rfl fun i _ => e i, sum_add_distrib, ← mul_sum, ← mul_sum, unity x h0 h1, lin x h0 h1]
      ring
    have nn := fun x h0 h1 i hi => (C03_clamped_bounds n p h hfine s hs x h0 h1 i hi).1
  · intro M hM hM0 x h0 h1
    have := convex_close (a := 0) (ε := M / 2 * (((p : ℝ) + 1) / (2 * ((n : ℝ) - p))) ^ 2) (nn x h0 h1) (unity x h0 h1)
      (fun i => f (grev n p i) - (f x + g x * (grev n p i - x))) ?_
    · have e : f x - ∑ i ∈ range n, f (grev n p i) * s.evaluate x (i : Int)
          = 0 - ∑ i ∈ range n, (f (grev n p i) - (f x + g x * (grev n p i - x))) * s.evaluate x (i : Int) := by
        simp only [sub_mul (f (grev n p _)), sum_sub_distrib]
        rw [lin' x h0 h1]
        ring
      beta_reduce at this ⊢
      rw [e]
      exact this
    · intro i hi hne
      have hm := grev_mem n p i hp h
      have h2 := hM x (grev n p i) h0 h1 hm.1 hm.2
      have h3 := grev_near n p hp h hfine hs x i hi hne
      rw [zero_sub, abs_neg, ← sub_sub]
      refine h2.trans (mul_le_mul_of_nonneg_left ?_ (by linarith))
      rw [← sq_abs, abs_sub_comm]
      exact pow_le_pow_left₀ (abs_nonneg _) h3 2
  · intro hc x h0 h1
    calc f x = _ := (lin' x h0 h1).symm
      _ ≤ _ := sum_le_sum fun i hi => mul_le_mul_of_nonneg_right (hc x _ h0 h1 (grev_mem n p i hp h).1 (grev_mem n p i hp h).2) (nn x h0 h1 i (mem_range.mp hi))

/-! ## Periodic -/

/-- Centre of the support of periodic spline `i`, moved into `[0,1)`. -/
noncomputable def pcentre (n p i : Nat) : ℝ := Int.fract (((i : ℝ) + (1 - p) / 2) / n)

theorem pcentre_near' (n p : Nat) (hn : 1 ≤ n) (x : ℝ) (i : Nat)
    (cases : N (periodicKnot ℝ n p) p i x ≠ 0 ∨ N (periodicKnot ℝ n p) p (n + i) x ≠ 0) :
    ∃ k : ℤ, |x - pcentre n p i - k| ≤ ((p : ℝ) + 1) / (2 * n) := by
  have hn0 : (0 : ℝ) < n := by exact_mod_cast hn
  have hn' := hn0.ne'
  have hm := (strictMono_periodicKnot (K := ℝ) n p hn).monotone
  have key : ∀ j : Nat, N (periodicKnot ℝ n p) p j x ≠ 0 → |x - ((j : ℝ) + (1 - p) / 2) / n| ≤ ((p : ℝ) + 1) / (2 * n) := by
    intro j hj
    have h1 : periodicKnot ℝ n p j ≤ x := by
      by_contra hc
      exact hj (N_eq_zero_of_lt hm (not_le.mp hc))
    have h2 : x ≤ periodicKnot ℝ n p (j + p + 1) := by
      by_contra hc
      exact hj (N_eq_zero_of_ge hm (not_le.mp hc).le)
    unfold periodicKnot at h1 h2
    rw [div_le_iff₀ hn0] at h1
    rw [le_div_iff₀ hn0] at h2
    push_cast at h2
    have e : x - ((j : ℝ) + (1 - p) / 2) / n = (x * n - ((j : ℝ) + (1 - p) / 2)) / n := by field_simp
    rw [e, abs_div, abs_of_pos hn0, div_le_div_iff₀ hn0 (by positivity)]
    have : |x * n - ((j : ℝ) + (1 - p) / 2)| ≤ ((p : ℝ) + 1) / 2 := by
      rw [abs_le]; constructor <;> linarith
    calc _ ≤ ((p : ℝ) + 1) / 2 * (2 * n) := mul_le_mul_of_nonneg_right this (by positivity)
      _ = _ := by ring
  have fr : pcentre n p i = ((i : ℝ) + (1 - p) / 2) / n - ⌊((i : ℝ) + (1 - p) / 2) / n⌋ := rfl
  rcases cases with hc | hc
  · refine ⟨⌊((i : ℝ) + (1 - p) / 2) / n⌋, ?_⟩
    have := key i hc
    rw [fr]
    convert this using 2
    ring
  · refine ⟨⌊((i : ℝ) + (1 - p) / 2) / n⌋ + 1, ?_⟩
    have := key (n + i) hc
    rw [fr]
    convert this using 2
    push_cast
    field_simp
    ring

theorem pcentre_near (n p : Nat) (hp : 1 ≤ p) (hn : 1 ≤ n) (h : p < n ∨ p = 1) (hfine : n ≤ 49975) {s : SplineBasis ℝ}
    (hs : SplineBasis.mk? n p "periodic" = .ok s) (x : ℝ) (i : Nat) (hi : i < n) (hx : s.evaluate x (i : Int) ≠ 0) :
    ∃ k : ℤ, |x - pcentre n p i - k| ≤ ((p : ℝ) + 1) / (2 * n) := by
  rw [of_mk?_periodic h hs, eval_periodic n p (by omega) hn hfine x i hi] at hx
  refine pcentre_near' n p hn x i ?_
  by_contra hc
  push Not at hc
  refine hx ?_
  rw [hc.1, hc.2]
  simp

/-- **C100** First order, periodic: if `f` varies by at most `ε` over half a support on the circle then some
periodic spline function is within `ε` of `f`. -/
theorem C100_periodic_first_order (n p : Nat) (hp : 1 ≤ p) (hn : 1 ≤ n) (h : p < n ∨ p = 1) (hfine : n ≤ 49975)
    (s : SplineBasis ℝ) (hs : SplineBasis.mk? n p "periodic" = .ok s) (f : ℝ → ℝ) (hper : ∀ x, f (x + 1) = f x) (ε : ℝ)
    (hf : ∀ x y, |x - y| ≤ ((p : ℝ) + 1) / (2 * n) → |f x - f y| ≤ ε) :
    ∃ c : Nat → ℝ, ∀ x, 0 ≤ x → x ≤ 1 → |f x - ∑ i ∈ range n, c i * s.evaluate x (i : Int)| ≤ ε := by
  refine ⟨fun i => f (pcentre n p i), fun x h0 h1 => ?_⟩
  refine convex_close (fun i hi => (C03_periodic_bounds n p hp hn h hfine s hs x h0 h1 i hi).1) (C02_periodic_partition_of_unity n p hp hn h hfine s hs x h0 h1) _ _ _ ?_
  intro i hi hne
  obtain ⟨k, hk⟩ := pcentre_near n p hp hn h hfine hs x i hi hne
  have : f (pcentre n p i) = f (pcentre n p i + k) := by
    have hp : Function.Periodic f 1 := hper
    have := hp.int_mul k (pcentre n p i)
    rw [mul_one] at this
    exact this.symm
  beta_reduce
  rw [this]
  refine hf _ _ ?_
  rwa [← sub_sub]

/-- Case: 5 periodic splines of degree 2 and the distance to the nearest integer. -/
example := C100_periodic_first_order 5 2 (by norm_num) (by norm_num) (Or.inl (by norm_num)) (by norm_num) _
  (show SplineBasis.mk? 5 2 "periodic" = .ok _ from rfl) (fun x => |x - round x|) (by intro x; simp) (1 / 2) (by
    intro x y _
    have hx := abs_sub_round x
    have hy := abs_sub_round y
    have := abs_nonneg (x - round x)
    have := abs_nonneg (y - round y)
    rw [abs_le]; constructor <;> linarith)

/-- **C100** In particular the error for a Lipschitz function is of first order in the element width. -/
theorem C100_clamped_lipschitz (n p : Nat) (hp : 1 ≤ p) (h : p < n) (hfine : n - p ≤ 99900)
    (s : SplineBasis ℝ) (hs : SplineBasis.mk? n p "clamped" = .ok s) (f : ℝ → ℝ) (L : ℝ) (hL : 0 ≤ L)
    (hf : ∀ x y, 0 ≤ x → x ≤ 1 → 0 ≤ y → y ≤ 1 → |f x - f y| ≤ L * |x - y|) :
    ∃ c : Nat → ℝ, ∀ x, 0 ≤ x → x ≤ 1 → |f x - ∑ i ∈ range n, c i * s.evaluate x (i : Int)| ≤ L * (((p : ℝ) + 1) / 2) * (1 / ((n : ℝ) - p)) := by
  obtain ⟨c, _, _, hc⟩ := C100_clamped_first_order n p hp h hfine s hs f (L * (((p : ℝ) + 1) / (2 * ((n : ℝ) - p))))
    fun x y h0 h1 h2 h3 hxy => (hf x y h0 h1 h2 h3).trans (mul_le_mul_of_nonneg_left hxy hL)
  refine ⟨c, fun x h0 h1 => (hc x h0 h1).trans (le_of_eq ?_)⟩
  rw [mul_assoc, ← div_eq_mul_one_div, div_div]

/-- Non-vacuity: `x²` with 202 quadratic splines is approximated to `9/160000`. -/
example : ∃ (s : SplineBasis ℝ) (c : Nat → ℝ), SplineBasis.mk? 202 2 "clamped" = .ok s ∧
    ∀ x, 0 ≤ x → x ≤ 1 → |x ^ 2 - ∑ i ∈ range 202, c i * s.evaluate x (i : Int)| ≤ 9 / 160000 := by
  obtain ⟨s, hs⟩ : ∃ s : SplineBasis ℝ, SplineBasis.mk? 202 2 "clamped" = .ok s := ⟨_, mk?_clamped 202 2 (by norm_num)⟩
  obtain ⟨c, _, _, hc, _⟩ := C100_clamped_second_order 202 2 (by norm_num) (by norm_num) (by norm_num) s hs (fun x => x ^ 2) (fun x => 2 * x)
  refine ⟨s, c, hs, fun x h0 h1 => (hc 2 (fun x y _ _ _ _ => ?_) (by norm_num) x h0 h1).trans (by norm_num)⟩
  rw [show y ^ 2 - x ^ 2 - 2 * x * (y - x) = (y - x) ^ 2 by ring, abs_of_nonneg (sq_nonneg _)]
  norm_num

end Mrx.Props
