import Verif.Props.ApproxForms
import Verif.Proofs.HighOrder
import Mathlib.Analysis.SpecialFunctions.Trigonometric.Deriv

/-!
# C118: convergence of full order

Splines of degree `p` approximate functions with `p + 1` derivatives with order `p + 1`, in one direction (clamped or periodic), and discrete 0-forms do so for products and sums of products of
such functions, on every sequence, also with the conditions at the axis of a polar sequence and at a Dirichlet boundary.
-/

set_option linter.unusedSectionVars false
set_option linter.unusedVariables false

namespace Mrx.Props
open Finset Mrx.Spec Mrx Matrix DeRham Quad

/-! ## Clamped -/

theorem high_knot_mem (n p k : Nat) (h : p < n) : 0 ≤ clampedKnot ℝ n p k ∧ clampedKnot ℝ n p k ≤ 1 := by
  refine ⟨?_, clampedKnot_le_one n p k h⟩
  rw [← clampedKnot_zero (K := ℝ) n p 0 (Nat.zero_le _)]
  exact monotone_clampedKnot n p h (Nat.zero_le _)

/-- The base points and the coefficients. -/
noncomputable def clampedBase (n p i : Nat) : ℝ := if i + 1 = n then 1 else clampedKnot ℝ n p i
noncomputable def clampedQuasi (n p : Nat) (D : Nat → ℝ → ℝ) (i : Nat) : ℝ := dbf (clampedKnot ℝ n p) p i (clampedBase n p i) fun k => D k (clampedBase n p i)

theorem clampedBase_mem {n p : Nat} (h : p < n) (i : Nat) (hi : i < n) : clampedKnot ℝ n p i ≤ clampedBase n p i ∧ clampedBase n p i ≤ clampedKnot ℝ n p (i + p + 1) := by
  unfold clampedBase
  split_ifs with e
  · exact ⟨clampedKnot_le_one n p i h, (clampedKnot_one n p (i + p + 1) (by omega) h).ge⟩
  · exact ⟨le_rfl, monotone_clampedKnot n p h (by omega)⟩

theorem clampedBase_near {n p : Nat} (h : p < n) (x : ℝ) (i : Nat) (hi : i < n) (sup : clampedKnot ℝ n p i ≤ x ∧ x ≤ clampedKnot ℝ n p (i + p + 1)) :
    clampedBase n p i ∈ Set.Icc (0 : ℝ) 1 ∧ |clampedBase n p i - x| ≤ ((p : ℝ) + 1) / ((n : ℝ) - p) ∧
      ∀ l < p, |clampedKnot ℝ n p (i + 1 + l) - clampedBase n p i| ≤ ((p : ℝ) + 1) / ((n : ℝ) - p) := by
  have mono := monotone_clampedKnot (K := ℝ) n p h
  obtain ⟨b1, b2⟩ := clampedBase_mem h i hi
  have st := clampedKnot_step n p i (p + 1) h
  rw [show i + (p + 1) = i + p + 1 by omega] at st
  push_cast at st
  refine ⟨⟨(high_knot_mem n p i h).1.trans b1, b2.trans (high_knot_mem n p _ h).2⟩, ?_, fun l hl => ?_⟩
  · rw [abs_le]; constructor <;> linarith [sup.1, sup.2]
  · have k1 := mono (show i ≤ i + 1 + l by omega)
    have k2 := mono (show i + 1 + l ≤ i + p + 1 by omega)
    rw [abs_le]; constructor <;> linarith

/-- Coefficients are close to those of the Taylor polynomials at the points of the support. -/
theorem clampedQuasi_close {n p : Nat} (h : p < n) {D : Nat → ℝ → ℝ} (hD : Jets (Set.Icc 0 1) p D) {M : ℝ} (hM : ∀ x, 0 ≤ x → x ≤ 1 → |D (p + 1) x| ≤ M) (x : ℝ) (h0 : 0 ≤ x) (h1 : x ≤ 1) (i : Nat)
    (hi : i < n) (sup : clampedKnot ℝ n p i ≤ x ∧ x ≤ clampedKnot ℝ n p (i + p + 1)) :
    |clampedQuasi n p D i - dbf (clampedKnot ℝ n p) p i x (fun k => D k x)| ≤ M * (2 * (((p : ℝ) + 1) / ((n : ℝ) - p))) ^ (p + 1) / (p + 1).factorial := by
  obtain ⟨a1, a2, a3⟩ := clampedBase_near h x i hi sup
  exact dbf_close (convex_Icc (0 : ℝ) 1) hD (fun y hy => hM y hy.1 hy.2) ⟨h0, h1⟩ a1 _ i a3 a2

theorem clamped_sup {n p : Nat} (h : p < n) (hfine : n - p ≤ 99900) {s : SplineBasis ℝ} (hs : SplineBasis.mk? n p "clamped" = .ok s) (x : ℝ) (i : Nat) (hi : i < n)
    (hw : s.evaluate x (i : Int) ≠ 0) : clampedKnot ℝ n p i ≤ x ∧ x ≤ clampedKnot ℝ n p (i + p + 1) := by
  by_contra hc
  refine hw (C04_clamped_support n p h hfine s hs x i hi ?_)
  rw [of_mk?_clamped h hs]
  dsimp only
  rw [get_clampedList n p h, get_clampedList n p h]
  by_contra hd
  push Not at hd
  exact hc hd

theorem clamped_quasi (n p : Nat) (hp : 1 ≤ p) (h : p < n) (hfine : n - p ≤ 99900) (s : SplineBasis ℝ) (hs : SplineBasis.mk? n p "clamped" = .ok s)
    (D : Nat → ℝ → ℝ) (hD : Jets (Set.Icc 0 1) p D) (M : ℝ) (hM : ∀ x, 0 ≤ x → x ≤ 1 → |D (p + 1) x| ≤ M) :
    clampedQuasi n p D 0 = D 0 0 ∧ clampedQuasi n p D (n - 1) = D 0 1 ∧ (3 ≤ n → clampedQuasi n p D 1 = D 0 0 + D 1 0 / (p * ((n : ℝ) - p))) ∧
      ∀ x, 0 ≤ x → x ≤ 1 → |D 0 x - ∑ i ∈ range n, clampedQuasi n p D i * s.evaluate x (i : Int)| ≤ M * (2 * (((p : ℝ) + 1) / ((n : ℝ) - p))) ^ (p + 1) / (p + 1).factorial := by
  have hn : (0 : ℝ) < (n : ℝ) - p := by
    have : (p : ℝ) < n := by exact_mod_cast h
    linarith
  have a0 : clampedBase n p 0 = 0 := by
    unfold clampedBase
    rw [if_neg (by omega), clampedKnot_zero n p 0 (Nat.zero_le _)]
  have a1 : clampedBase n p (n - 1) = 1 := by
    unfold clampedBase
    rw [if_pos (by omega)]
  refine ⟨?_, ?_, fun h3 => ?_, fun x h0 h1 => ?_⟩
  · unfold clampedQuasi
    rw [a0, dbf_end _ _ _ _ _ fun l hl => clampedKnot_zero n p (0 + 1 + l) (by omega)]
  · unfold clampedQuasi
    rw [a1, dbf_end _ _ _ _ _ fun l hl => clampedKnot_one n p (n - 1 + 1 + l) (by omega) h]
  · unfold clampedQuasi
    have e1 : clampedBase n p 1 = 0 := by
      unfold clampedBase
      rw [if_neg (by omega), clampedKnot_zero n p 1 hp]
    obtain ⟨q, rfl⟩ : ∃ q, p = q + 1 := ⟨p - 1, by omega⟩
    have kn : clampedKnot ℝ n (q + 1) (1 + 1 + q) = 0 + 1 / ((n : ℝ) - ((q + 1 : Nat) : ℝ)) := by
      have := Mrx.Props.clampedKnot_elem n (q + 1) 1 h (by omega)
      rw [show q + 1 + 1 = 1 + 1 + q by omega] at this
      rw [this, Nat.cast_sub h.le]
      push_cast
      ring
    rw [e1, dbf_next _ q 1 0 _ _ (fun l hl => clampedKnot_zero n (q + 1) (1 + 1 + l) (by omega)) kn]
    have hq : ((q : ℝ) + 1) ≠ 0 := by positivity
    have hn' := hn.ne'
    push_cast at hn' ⊢
    field_simp
  · have mar := fun y => marsden_eval n p h hfine x h0 h1 y
    rw [← of_mk?_clamped h hs] at mar
    exact quasi_error (convex_Icc (0 : ℝ) 1) hD (fun y hy => hM y hy.1 hy.2) (x := x) ⟨h0, h1⟩ (H := ((p : ℝ) + 1) / ((n : ℝ) - p)) (τ := clampedKnot ℝ n p) (m := n)
      (w := fun i => s.evaluate x (i : Int)) (fun i hi => (C03_clamped_bounds n p h hfine s hs x h0 h1 i hi).1) (C01_clamped_partition_of_unity n p h hfine s hs x h0 h1) mar (clampedBase n p)
      fun i hi hw => clampedBase_near h x i hi (clamped_sup h hfine hs x i hi hw)

/-- **C118** One direction, clamped: a function with `p + 1` derivatives, the last bounded by `M`, is within `M (2H)^(p+1) / (p+1)!`, `H = (p+1)/(n-p)`, of a spline with the same end values whose
slope at 0 is that of the function. -/
theorem C118_clamped (n p : Nat) (hp : 1 ≤ p) (h : p < n) (hfine : n - p ≤ 99900) (s : SplineBasis ℝ) (hs : SplineBasis.mk? n p "clamped" = .ok s)
    (D : Nat → ℝ → ℝ) (hD : Jets (Set.Icc 0 1) p D) (M : ℝ) (hM : ∀ x, 0 ≤ x → x ≤ 1 → |D (p + 1) x| ≤ M) :
    ∃ c : Nat → ℝ, c 0 = D 0 0 ∧ c (n - 1) = D 0 1 ∧ (3 ≤ n → c 1 = D 0 0 + D 1 0 / (p * ((n : ℝ) - p))) ∧
      ∀ x, 0 ≤ x → x ≤ 1 → |D 0 x - ∑ i ∈ range n, c i * s.evaluate x (i : Int)| ≤ M * (2 * (((p : ℝ) + 1) / ((n : ℝ) - p))) ^ (p + 1) / (p + 1).factorial :=
  ⟨_, clamped_quasi n p hp h hfine s hs D hD M hM⟩

/-! ## Periodic -/

theorem high_periodic {p : Nat} {D : Nat → ℝ → ℝ} (hD : Jets Set.univ p D) (h0 : ∀ x, D 0 (x + 1) = D 0 x) (k : Nat) (hk : k ≤ p + 1) (x : ℝ) : D k (x + 1) = D k x := by
  induction k generalizing x with
  | zero => exact h0 x
  | succ k ih =>
    have d1 := (hasDerivWithinAt_univ.mp (hD k (by omega) (x + 1) (Set.mem_univ _)))
    have d2 := (hasDerivWithinAt_univ.mp (hD k (by omega) x (Set.mem_univ _)))
    have d3 := d1.comp_add_const x 1
    have e : (fun y => D k (y + 1)) = D k := funext fun y => ih (by omega) y
    rw [e] at d3
    exact d3.unique d2

/-- The derivatives of a first harmonic. -/
theorem high_harmonic {p : Nat} {D : Nat → ℝ → ℝ} (hD : Jets Set.univ p D) {α β : ℝ} (h0 : ∀ x, D 0 x = α * Real.cos (2 * Real.pi * x) + β * Real.sin (2 * Real.pi * x)) (k : Nat)
    (hk : k ≤ p + 1) (x : ℝ) : D k x = (2 * Real.pi) ^ k * (α * Real.cos (2 * Real.pi * x + k * (Real.pi / 2)) + β * Real.sin (2 * Real.pi * x + k * (Real.pi / 2))) := by
  induction k generalizing x with
  | zero => rw [h0]; simp
  | succ k ih =>
    have d1 := (hasDerivWithinAt_univ.mp (hD k (by omega) x (Set.mem_univ _)))
    have e : D k = fun y => (2 * Real.pi) ^ k * (α * Real.cos (2 * Real.pi * y + k * (Real.pi / 2)) + β * Real.sin (2 * Real.pi * y + k * (Real.pi / 2))) := funext fun y => ih (by omega) y
    have a : HasDerivAt (fun y : ℝ => 2 * Real.pi * y + k * (Real.pi / 2)) (2 * Real.pi) x := by
      simpa using ((hasDerivAt_id x).const_mul (2 * Real.pi)).add_const (k * (Real.pi / 2))
    have d2 := ((a.cos.const_mul α).add (a.sin.const_mul β)).const_mul ((2 * Real.pi) ^ k)
    rw [e] at d1
    have := d1.unique d2
    rw [this]
    have s : 2 * Real.pi * x + ((k + 1 : Nat) : ℝ) * (Real.pi / 2) = 2 * Real.pi * x + k * (Real.pi / 2) + Real.pi / 2 := by push_cast; ring
    rw [s, Real.cos_add_pi_div_two, Real.sin_add_pi_div_two, pow_succ]
    ring

noncomputable def periodicQuasi (n p : Nat) (D : Nat → ℝ → ℝ) (i : Nat) : ℝ := dbf (periodicKnot ℝ n p) p i (periodicKnot ℝ n p i) fun k => D k (periodicKnot ℝ n p i)

theorem periodicKnot_plus (n p : Nat) (hn : 1 ≤ n) (i j : Nat) : periodicKnot ℝ n p (i + j) = periodicKnot ℝ n p i + j / n := by
  have hn0 : (0 : ℝ) < n := by exact_mod_cast hn
  unfold periodicKnot
  push_cast
  field_simp
  ring

theorem periodicQuasi_translate (n p : Nat) (hn : 1 ≤ n) (D : Nat → ℝ → ℝ) (i : Nat) :
    periodicQuasi n p D i = dbf (periodicKnot ℝ n p) p 0 (periodicKnot ℝ n p 0) fun k => D k (periodicKnot ℝ n p 0 + i / n) := by
  have step := periodicKnot_plus n p hn
  unfold periodicQuasi
  have e := step 0 i
  rw [zero_add] at e
  rw [e]
  refine dbf_translate _ p 0 i _ _ _ fun l _ => ?_
  have e1 := step 0 (i + 1 + l)
  have e2 := step 0 (0 + 1 + l)
  rw [zero_add] at e1
  rw [zero_add (0 + 1 + l)] at e2
  rw [e1, e2]
  push_cast
  ring

theorem periodicQuasi_periodic (n p : Nat) (hn : 1 ≤ n) {D : Nat → ℝ → ℝ} (hD : Jets Set.univ p D) (hper : ∀ x, D 0 (x + 1) = D 0 x) (i : Nat) : periodicQuasi n p D (i + n) = periodicQuasi n p D i := by
  have hn0 : (0 : ℝ) < n := by exact_mod_cast hn
  rw [periodicQuasi_translate n p hn, periodicQuasi_translate n p hn]
  unfold dbf
  congr 1
  refine sum_congr rfl fun k hk => ?_
  beta_reduce
  have := high_periodic hD hper k (by have := mem_range.mp hk; omega) (periodicKnot ℝ n p 0 + i / n)
  rw [← this]
  congr 2
  push_cast
  field_simp
  ring

theorem periodicBase_near {n p : Nat} (hn : 1 ≤ n) (x : ℝ) (i : Nat) (sup : periodicKnot ℝ n p i ≤ x ∧ x ≤ periodicKnot ℝ n p (i + p + 1)) :
    |periodicKnot ℝ n p i - x| ≤ ((p : ℝ) + 1) / n ∧ ∀ l < p, |periodicKnot ℝ n p (i + 1 + l) - periodicKnot ℝ n p i| ≤ ((p : ℝ) + 1) / n := by
  have mono := (strictMono_periodicKnot (K := ℝ) n p hn).monotone
  have st := periodicKnot_plus n p hn i (p + 1)
  rw [show i + (p + 1) = i + p + 1 by omega] at st
  push_cast at st
  obtain ⟨h1, h2⟩ := sup
  refine ⟨?_, fun l hl => ?_⟩
  · rw [abs_le]; constructor <;> linarith
  · have k1 := mono (show i ≤ i + 1 + l by omega)
    have k2 := mono (show i + 1 + l ≤ i + p + 1 by omega)
    rw [abs_le]; constructor <;> linarith

theorem periodicQuasi_close {n p : Nat} (hn : 1 ≤ n) {D : Nat → ℝ → ℝ} (hD : Jets Set.univ p D) {M : ℝ} (hM : ∀ x, |D (p + 1) x| ≤ M) (x : ℝ) (i : Nat)
    (sup : periodicKnot ℝ n p i ≤ x ∧ x ≤ periodicKnot ℝ n p (i + p + 1)) :
    |periodicQuasi n p D i - dbf (periodicKnot ℝ n p) p i x (fun k => D k x)| ≤ M * (2 * (((p : ℝ) + 1) / n)) ^ (p + 1) / (p + 1).factorial := by
  obtain ⟨a2, a3⟩ := periodicBase_near hn x i sup
  exact dbf_close convex_univ hD (fun y _ => hM y) (Set.mem_univ x) (Set.mem_univ _) _ i a3 a2

theorem periodic_quasi (n p : Nat) (hp : 1 ≤ p) (hn : 1 ≤ n) (h : p < n ∨ p = 1) (hfine : n ≤ 49975) (s : SplineBasis ℝ) (hs : SplineBasis.mk? n p "periodic" = .ok s)
    (D : Nat → ℝ → ℝ) (hD : Jets Set.univ p D) (hper : ∀ x, D 0 (x + 1) = D 0 x) (M : ℝ) (hM : ∀ x, |D (p + 1) x| ≤ M) :
    (FirstHarmonic (D 0) → ∃ A B : ℝ, ∀ j, periodicQuasi n p D j = A * Real.cos (ang n j) + B * Real.sin (ang n j)) ∧
      ∀ x, 0 ≤ x → x ≤ 1 → |D 0 x - ∑ i ∈ range n, periodicQuasi n p D i * s.evaluate x (i : Int)| ≤ M * (2 * (((p : ℝ) + 1) / n)) ^ (p + 1) / (p + 1).factorial := by
  have mono := (strictMono_periodicKnot (K := ℝ) n p hn).monotone
  have hpn : p ≤ n := by omega
  have cper := periodicQuasi_periodic n p hn hD hper
  refine ⟨?_, fun x h0 h1 => ?_⟩
  · rintro ⟨α, β, hh⟩
    obtain ⟨E, hE⟩ : ∃ E : Nat → ℝ, E = fun k : Nat => (2 * Real.pi) ^ k * (β * Real.cos (2 * Real.pi * periodicKnot ℝ n p 0 + k * (Real.pi / 2)) - α * Real.sin (2 * Real.pi * periodicKnot ℝ n p 0 + k * (Real.pi / 2))) := ⟨_, rfl⟩
    refine ⟨dbf (periodicKnot ℝ n p) p 0 (periodicKnot ℝ n p 0) fun k => D k (periodicKnot ℝ n p 0), dbf (periodicKnot ℝ n p) p 0 (periodicKnot ℝ n p 0) E, fun j => ?_⟩
    rw [periodicQuasi_translate n p hn, mul_comm _ (Real.cos _), mul_comm _ (Real.sin _)]
    refine dbf_lin _ _ _ _ _ _ _ _ _ fun k hk => ?_
    rw [high_harmonic hD hh k (by omega), high_harmonic hD hh k (by omega), hE]
    beta_reduce
    have e : 2 * Real.pi * (periodicKnot ℝ n p 0 + j / n) + k * (Real.pi / 2) = (2 * Real.pi * periodicKnot ℝ n p 0 + k * (Real.pi / 2)) + ang n j := by
      unfold ang; ring
    rw [e]
    generalize 2 * Real.pi * periodicKnot ℝ n p 0 + k * (Real.pi / 2) = φ
    rw [Real.cos_add, Real.sin_add]
    ring
  · have e1 : periodicKnot ℝ n p (n + p) = 1 := by rw [periodicKnot_add n p p hn, periodicKnot_p]; simp
    have e2 : (1 : ℝ) < periodicKnot ℝ n p (n + p + 1) := by rw [← e1]; exact strictMono_periodicKnot n p hn (by omega)
    have ev : ∑ i ∈ range n, periodicQuasi n p D i * s.evaluate x (i : Int) = ∑ i ∈ range (n + p + 1), periodicQuasi n p D i * N (periodicKnot ℝ n p) p i x := by
      rw [of_mk?_periodic h hs, sum_periodic n p hpn hn hfine _ x, sum_range_succ, N_left_zero mono (by rw [e1]; exact h1) (h1.trans_lt (by rw [← e1]; exact strictMono_periodicKnot n p hn (by omega))), mul_zero, add_zero]
      refine sum_congr rfl fun i _ => ?_
      rw [Function.Periodic.map_mod_nat cper]
    rw [ev]
    refine quasi_error convex_univ hD (fun y _ => hM y) (x := x) (Set.mem_univ _) (H := ((p : ℝ) + 1) / n) (τ := periodicKnot ℝ n p) (m := n + p + 1)
      (w := fun i => N (periodicKnot ℝ n p) p i x) (fun i _ => N_nonneg mono p i x) (N_sum mono (by rw [periodicKnot_p]; exact h0) (h1.trans_lt e2))
      (fun y => marsden mono (by rw [periodicKnot_p]; exact h0) (h1.trans_lt e2) y) (fun i => periodicKnot ℝ n p i) fun i _ hw => ?_
    have h1 : periodicKnot ℝ n p i ≤ x := by
      by_contra hc
      exact hw (N_eq_zero_of_lt mono (not_le.mp hc))
    have h2 : x ≤ periodicKnot ℝ n p (i + p + 1) := by
      by_contra hc
      exact hw (N_eq_zero_of_ge mono (not_le.mp hc).le)
    exact ⟨Set.mem_univ _, periodicBase_near hn x i ⟨h1, h2⟩⟩

/-- **C118** One direction, periodic: the same with `H = (p+1)/n`. The coefficients of `α cos 2πx + β sin 2πx` are `A cos 2πj/n + B sin 2πj/n`. -/
theorem C118_periodic (n p : Nat) (hp : 1 ≤ p) (hn : 1 ≤ n) (h : p < n ∨ p = 1) (hfine : n ≤ 49975) (s : SplineBasis ℝ) (hs : SplineBasis.mk? n p "periodic" = .ok s)
    (D : Nat → ℝ → ℝ) (hD : Jets Set.univ p D) (hper : ∀ x, D 0 (x + 1) = D 0 x) (M : ℝ) (hM : ∀ x, |D (p + 1) x| ≤ M) :
    ∃ c : Nat → ℝ, (FirstHarmonic (D 0) → ∃ A B : ℝ, ∀ j, c j = A * Real.cos (ang n j) + B * Real.sin (ang n j)) ∧
      ∀ x, 0 ≤ x → x ≤ 1 → |D 0 x - ∑ i ∈ range n, c i * s.evaluate x (i : Int)| ≤ M * (2 * (((p : ℝ) + 1) / n)) ^ (p + 1) / (p + 1).factorial :=
  ⟨_, periodic_quasi n p hp hn h hfine s hs D hD hper M hM⟩

/-! ## Discrete 0-forms -/

/-- The coefficients of one direction. -/
theorem dir_high {n p q : Nat} {ty : String} (h : DirOK n p q ty) {s : SplineBasis ℝ} (hs : SplineBasis.mk? n p ty = .ok s) {D : Nat → ℝ → ℝ} {M : ℝ} (hD : SmoothDir ty p D M) :
    ∃ c : Nat → ℝ, (ty = "clamped" → c 0 = D 0 0 ∧ c (n - 1) = D 0 1 ∧ (3 ≤ n → c 1 = D 0 0 + D 1 0 / (p * ((n : ℝ) - p)))) ∧
      (ty = "periodic" → FirstHarmonic (D 0) → ∃ A B : ℝ, ∀ j, c j = A * Real.cos (ang n j) + B * Real.sin (ang n j)) ∧
      ∀ x, 0 ≤ x → x ≤ 1 → |D 0 x - ∑ i ∈ range n, c i * s.evaluate x (i : Int)| ≤ fullOrder n p ty M := by
  have U := DirOK.unity h
  rcases h with ⟨rfl, a, b, c, _⟩ | ⟨rfl, a, b, c, d, _⟩ | ⟨rfl, rfl, _⟩
  · rcases hD with ⟨_, d1, d2⟩ | ⟨e, _⟩ | ⟨e, _⟩
    · obtain ⟨k, k0, k1, k2, k3⟩ := C118_clamped n p a b c s hs D d1 M d2
      refine ⟨k, fun _ => ⟨k0, k1, k2⟩, fun e => absurd e (by decide), ?_⟩
      unfold fullOrder
      rw [if_pos rfl]
      exact k3
    · exact absurd e (by decide)
    · exact absurd e (by decide)
  · rcases hD with ⟨e, _⟩ | ⟨_, d1, d2, d3⟩ | ⟨e, _⟩
    · exact absurd e (by decide)
    · obtain ⟨k, k0, k1⟩ := C118_periodic n p a c b d s hs D d1 d2 M d3
      refine ⟨k, fun e => absurd e (by decide), fun _ => k0, ?_⟩
      unfold fullOrder
      rw [if_neg (by decide), if_pos rfl]
      exact k1
    · exact absurd e (by decide)
  · rcases hD with ⟨e, _⟩ | ⟨e, _⟩ | ⟨_, _, _, d⟩
    · exact absurd e (by decide)
    · exact absurd e (by decide)
    · refine ⟨fun _ => D 0 0, fun e => absurd e (by decide), fun e => absurd e (by decide), fun x h0 h1 => ?_⟩
      rw [← mul_sum, U.sum hs x h0 h1, mul_one, d x, sub_self, abs_zero]
      unfold fullOrder
      rw [if_neg (by decide), if_neg (by decide)]

theorem fullOrder_nonneg {n p q : Nat} {ty : String} (h : DirOK n p q ty) {D : Nat → ℝ → ℝ} {M : ℝ} (hD : SmoothDir ty p D M) : 0 ≤ fullOrder n p ty M := by
  have hM : 0 ≤ M := by
    rcases hD with ⟨_, _, d⟩ | ⟨_, _, _, d⟩ | ⟨_, _, d, _⟩
    · exact (abs_nonneg _).trans (d 0 le_rfl zero_le_one)
    · exact (abs_nonneg _).trans (d 0)
    · exact d
  unfold fullOrder
  split_ifs with h1
  · rcases h with ⟨_, _, b, _⟩ | ⟨e, _⟩ | ⟨e, _⟩
    · have : (p : ℝ) < n := by exact_mod_cast b
      have h2 : (0 : ℝ) < (n : ℝ) - p := by linarith
      positivity
    · rw [h1] at e; exact absurd e (by decide)
    · rw [h1] at e; exact absurd e (by decide)
  · positivity
  · exact le_rfl

theorem high_product {a b c a' b' c' A B C e1 e2 e3 : ℝ} (ha : |a| ≤ A) (hb : |b| ≤ B) (hc : |c| ≤ C) (h1 : |a - a'| ≤ e1) (h2 : |b - b'| ≤ e2) (h3 : |c - c'| ≤ e3) :
    |a * b * c - a' * b' * c'| ≤ (A + e1) * (B + e2) * (C + e3) - A * B * C := by
  obtain ⟨u, rfl⟩ : ∃ u, a' = a - u := ⟨a - a', by ring⟩
  obtain ⟨v, rfl⟩ : ∃ v, b' = b - v := ⟨b - b', by ring⟩
  obtain ⟨w, rfl⟩ : ∃ w, c' = c - w := ⟨c - c', by ring⟩
  rw [sub_sub_cancel] at h1 h2 h3
  have A0 := (abs_nonneg _).trans ha
  have B0 := (abs_nonneg _).trans hb
  have C0 := (abs_nonneg _).trans hc
  have E1 := (abs_nonneg _).trans h1
  have E2 := (abs_nonneg _).trans h2
  have E3 := (abs_nonneg _).trans h3
  have m : ∀ {x y z X Y Z : ℝ}, |x| ≤ X → |y| ≤ Y → |z| ≤ Z → |x * y * z| ≤ X * Y * Z := by
    intro x y z X Y Z hx hy hz
    rw [abs_mul, abs_mul]
    exact mul_le_mul (mul_le_mul hx hy (abs_nonneg _) ((abs_nonneg _).trans hx)) hz (abs_nonneg _) (mul_nonneg ((abs_nonneg _).trans hx) ((abs_nonneg _).trans hy))
  have e : a * b * c - (a - u) * (b - v) * (c - w) = u * b * c + a * v * c + a * b * w - u * v * c - u * b * w - a * v * w + u * v * w := by ring
  rw [e]
  have t1 := abs_le.mp (m h1 hb hc)
  have t2 := abs_le.mp (m ha h2 hc)
  have t3 := abs_le.mp (m ha hb h3)
  have t4 := abs_le.mp (m h1 h2 hc)
  have t5 := abs_le.mp (m h1 hb h3)
  have t6 := abs_le.mp (m ha h2 h3)
  have t7 := abs_le.mp (m h1 h2 h3)
  rw [abs_le]
  constructor <;> nlinarith [t1.1, t1.2, t2.1, t2.2, t3.1, t3.2, t4.1, t4.2, t5.1, t5.2, t6.1, t6.2, t7.1, t7.2]

section Forms
variable {ns ps : Nat × Nat × Nat} {q : Nat} {types : String × String × String} {F : V3 → V3} {polar dirichlet : Bool} {D : DeRham}

/-- Values of three-index coefficients. -/
noncomputable def tensorValue (D : DeRham) (ns : Nat × Nat × Nat) (C : Nat → Nat → Nat → ℝ) (x : ℝ × ℝ × ℝ) : ℝ :=
  ∑ i ∈ range ns.1, ∑ j ∈ range ns.2.1, ∑ l ∈ range ns.2.2, C i j l * (D.S.L0.Λ0.evaluate x.1 i * D.S.L0.Λ1.evaluate x.2.1 j * D.S.L0.Λ2.evaluate x.2.2 l)

theorem term_high (h : Admissible ns ps q types F polar dirichlet D) (a : Term) (ha : a.Ok ps types polar dirichlet) :
    ∃ C : Nat → Nat → Nat → ℝ, (polar = true → Polar0 ns.1 ns.2.1 ns.2.2 dirichlet C) ∧
      (polar = false → dirichlet = true → ∀ j < ns.2.1, ∀ l < ns.2.2, C 0 j l = 0 ∧ C (ns.1 - 1) j l = 0) ∧
      ∀ x, InCube x → |a.value x - tensorValue D ns C x| ≤ a.error ns ps types := by
  obtain ⟨m0, _, _, _, hQ⟩ := Seq.mk?_inv (Admissible.seq h.built)
  obtain ⟨hk, hd, s0, s1, s2, _⟩ := Form.mk?_inv m0
  obtain ⟨o1, o2, o3, ob, oa, od⟩ := ha
  obtain ⟨c, cc, -, ce⟩ := dir_high h.r s0 o1
  obtain ⟨e, ehar, ee⟩ : ∃ e : Nat → ℝ, (polar = true → (∀ x, a.t 0 x = a.t 0 0) → a.g 1 0 = 0 → ∃ v, ∀ j, e j = v) ∧
      (polar = true → ¬ ((∀ x, a.t 0 x = a.t 0 0) ∧ a.g 1 0 = 0) → FirstHarmonic (a.t 0) → ∃ A B : ℝ, ∀ j, e j = A * Real.cos (ang ns.2.1 j) + B * Real.sin (ang ns.2.1 j)) ∧
      ∀ x, 0 ≤ x → x ≤ 1 → |a.t 0 x - ∑ i ∈ range ns.2.1, e i * D.S.L0.Λ1.evaluate x (i : Int)| ≤ fullOrder ns.2.1 ps.2.1 types.2.1 a.Mt := by
    by_cases hcst : (∀ x, a.t 0 x = a.t 0 0) ∧ a.g 1 0 = 0
    · refine ⟨fun _ => a.t 0 0, fun _ _ _ => ⟨_, fun _ => rfl⟩, fun _ hc => absurd hcst hc, fun x h0 h1 => ?_⟩
      rw [← mul_sum, (DirOK.unity h.t).sum s1 x h0 h1, mul_one, hcst.1 x, sub_self, abs_zero]
      exact fullOrder_nonneg h.t o2
    · obtain ⟨e, -, e1, e2⟩ := dir_high h.t s1 o2
      exact ⟨e, fun _ hc hg => absurd ⟨hc, hg⟩ hcst, fun hp _ hf => e1 (h.polar hp).2.1 hf, e2⟩
  obtain ⟨f, -, -, fe⟩ := dir_high h.z s2 o3
  refine ⟨fun i j l => c i * e j * f l, fun hp => ?_, fun hp hdir j _ l _ => ?_, fun x hx => ?_⟩
  · obtain ⟨tr, tt, tz, nr, nt⟩ := h.polar hp
    obtain ⟨c0, c1, c2⟩ := cc tr
    have c2 := c2 nr
    refine ⟨?_, fun hdir j _ l _ => ?_⟩
    · rcases oa hp with ⟨g1, tc⟩ | ⟨g0, th⟩ | ⟨g0, g1⟩
      · obtain ⟨v, hv⟩ := ehar hp tc g1
        refine ⟨fun l => c 0 * v * f l, fun _ => 0, fun _ => 0, fun j _ l _ => ⟨by beta_reduce; rw [hv], ?_⟩⟩
        have : c 1 = c 0 := by rw [c2, c0, g1]; simp
        beta_reduce; rw [hv, this]
        ring
      · by_cases hcst : (∀ x, a.t 0 x = a.t 0 0) ∧ a.g 1 0 = 0
        · obtain ⟨v, hv⟩ := ehar hp hcst.1 hcst.2
          refine ⟨fun l => c 0 * v * f l, fun _ => 0, fun _ => 0, fun j _ l _ => ⟨by beta_reduce; rw [hv], ?_⟩⟩
          have : c 1 = c 0 := by rw [c2, c0, hcst.2]; simp
          beta_reduce; rw [hv, this]
          ring
        · obtain ⟨A, B, hAB⟩ := ee.1 hp hcst th
          refine ⟨fun _ => 0, fun l => c 1 * A * f l, fun l => c 1 * B * f l, fun j _ l _ => ⟨by beta_reduce; rw [c0, g0]; ring, ?_⟩⟩
          beta_reduce; rw [hAB]
          ring
      · refine ⟨fun _ => 0, fun _ => 0, fun _ => 0, fun j _ l _ => ⟨by beta_reduce; rw [c0, g0]; ring, ?_⟩⟩
        beta_reduce; rw [c2, g0, g1]
        ring
    · beta_reduce; rw [c1, (od hdir).2.1]
      ring
  · obtain ⟨tc, z1, z0⟩ := od hdir
    obtain ⟨c0, c1, _⟩ := cc tc
    beta_reduce
    rw [c0, c1, z1, z0 hp]
    constructor <;> ring
  · have ev : tensorValue D ns (fun i j l => c i * e j * f l) x = (∑ i ∈ range ns.1, c i * D.S.L0.Λ0.evaluate x.1 i) * (∑ j ∈ range ns.2.1, e j * D.S.L0.Λ1.evaluate x.2.1 j)
        * ∑ l ∈ range ns.2.2, f l * D.S.L0.Λ2.evaluate x.2.2 l := by
      unfold tensorValue
      rw [sum_mul_sum, sum_mul]
      refine sum_congr rfl fun i _ => ?_
      rw [sum_mul]
      refine sum_congr rfl fun j _ => ?_
      rw [mul_sum]
      exact sum_congr rfl fun l _ => by ring
    rw [ev]
    exact high_product (ob x.1 hx.1.1 hx.1.2).1 (ob x.2.1 hx.2.1.1 hx.2.1.2).2.1 (ob x.2.2 hx.2.2.1 hx.2.2.2).2.2 (ce x.1 hx.1.1 hx.1.2) (ee.2 x.2.1 hx.2.1.1 hx.2.1.2) (fe x.2.2 hx.2.2.1 hx.2.2.2)

theorem terms_high (h : Admissible ns ps q types F polar dirichlet D) (l : List Term) (hl : ∀ a ∈ l, a.Ok ps types polar dirichlet) :
    ∃ C : Nat → Nat → Nat → ℝ, (polar = true → Polar0 ns.1 ns.2.1 ns.2.2 dirichlet C) ∧
      (polar = false → dirichlet = true → ∀ j < ns.2.1, ∀ l < ns.2.2, C 0 j l = 0 ∧ C (ns.1 - 1) j l = 0) ∧
      ∀ x, InCube x → |(l.map fun a => a.value x).sum - tensorValue D ns C x| ≤ (l.map fun a => a.error ns ps types).sum := by
  induction l with
  | nil => exact ⟨fun _ _ _ => 0, fun _ => ⟨⟨fun _ => 0, fun _ => 0, fun _ => 0, fun _ _ _ _ => by simp⟩, fun _ _ _ _ _ => rfl⟩, fun _ _ _ _ _ _ => ⟨rfl, rfl⟩, fun x _ => by simp [tensorValue]⟩
  | cons a l ih =>
    obtain ⟨C, C1, C2, C3⟩ := ih fun b hb => hl b (List.mem_cons_of_mem _ hb)
    obtain ⟨C', C1', C2', C3'⟩ := term_high h a (hl a List.mem_cons_self)
    refine ⟨fun i j l => C' i j l + C i j l, fun hp => ?_, fun hp hd j hj l hl => ?_, fun x hx => ?_⟩
    · obtain ⟨⟨a, b, c, k⟩, d⟩ := C1 hp
      obtain ⟨⟨a', b', c', k'⟩, d'⟩ := C1' hp
      refine ⟨⟨fun l => a' l + a l, fun l => b' l + b l, fun l => c' l + c l, fun j hj l hl => ⟨?_, ?_⟩⟩, fun hd j hj l hl => ?_⟩
      · beta_reduce; rw [(k j hj l hl).1, (k' j hj l hl).1]
      · beta_reduce; rw [(k j hj l hl).2, (k' j hj l hl).2]; ring
      · beta_reduce; rw [d hd j hj l hl, d' hd j hj l hl, add_zero]
    · beta_reduce
      rw [(C2 hp hd j hj l hl).1, (C2 hp hd j hj l hl).2, (C2' hp hd j hj l hl).1, (C2' hp hd j hj l hl).2]
      simp
    · have e : tensorValue D ns (fun i j l => C' i j l + C i j l) x = tensorValue D ns C' x + tensorValue D ns C x := by
        unfold tensorValue
        simp only [add_mul, sum_add_distrib]
      rw [e, List.map_cons, List.sum_cons, List.map_cons, List.sum_cons, add_sub_add_comm]
      exact (abs_add_le _ _).trans (add_le_add (C3' x hx) (C3 x hx))

/-- **C118** Discrete 0-forms, every sequence: a sum of products that satisfies the conditions of the sequence is within the sum of the errors of full order of a discrete 0-form, everywhere in the
cube. -/
theorem C118_zeroform (h : Admissible ns ps q types F polar dirichlet D) (l : List Term) (hl : ∀ a ∈ l, a.Ok ps types polar dirichlet) :
    ∃ u : Fin D.m0 → ℝ, ∀ x, InCube x → |(l.map fun a => a.value x).sum - D.phys0 u (toV3 x) 0| ≤ (l.map fun a => a.error ns ps types).sum := by
  obtain ⟨C, C1, C2, C3⟩ := terms_high h l hl
  obtain ⟨u, hu⟩ := zeroform_range h C C1 C2
  exact ⟨u, fun x hx => by rw [hu x]; exact C3 x hx⟩

/-- **C118** The L2 projection `solve(M0, P0(f))` of such a function converges with full order in the quadrature L2 norm. -/
theorem C118_projection (h : Admissible ns ps q types F polar dirichlet D) (l : List Term) (hl : ∀ a ∈ l, a.Ok ps types polar dirichlet) (f : V3 → Fin 1 → ℝ)
    (hf : ∀ x, InCube x → f (toV3 x) 0 = (l.map fun a => a.value x).sum) :
    l2Product (fun x => f x - D.phys0 (D.M0⁻¹ *ᵥ D.projector0 f) x) (fun x => f x - D.phys0 (D.M0⁻¹ *ᵥ D.projector0 f) x) D.S.Q F
      ≤ (l.map fun a => a.error ns ps types).sum ^ 2 * quadVolume D F := by
  obtain ⟨u, hu⟩ := C118_zeroform h l hl
  obtain ⟨best, _, _, _, pos, _⟩ := C36_best_approximation h
  have e := best f u
  have p := (pos (u - D.M0⁻¹ *ᵥ D.projector0 f)).1
  have b := l2_le_of_le h (fun x => f x - D.phys0 u x) ((l.map fun a => a.error ns ps types).sum ^ 2) fun x hx => by
    have := hu x hx
    simp only [dotProduct, univ_unique, Fin.default_eq_zero, Fin.isValue, Pi.sub_apply, sum_singleton]
    rw [← sq, ← sq_abs, hf x hx]
    exact pow_le_pow_left₀ (abs_nonneg _) this 2
  linarith

end Forms

end Mrx.Props
