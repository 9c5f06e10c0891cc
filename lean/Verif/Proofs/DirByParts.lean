import Verif.Proofs.RuleByParts
import Verif.Proofs.Exact

/-! # One direction of an admissible sequence: weights, bounds and integration by parts -/

set_option linter.unusedSectionVars false
set_option linter.unusedVariables false

namespace Mrx
open Finset Spec Polynomial Quad Props

theorem applyRule_range (xs ws : List ℝ) (hl : xs.length = ws.length) (f : ℝ → ℝ) :
    applyRule (xs, ws) f = ∑ s ∈ range xs.length, ws.getD s 0 * f (xs.getD s 0) := by
  induction xs generalizing ws with
  | nil => simp [applyRule]
  | cons x xs ih =>
    cases ws with
    | nil => simp at hl
    | cons w ws =>
      rw [List.length_cons, Finset.sum_range_succ']
      have := ih ws (by simpa using hl)
      unfold applyRule at this ⊢
      simp only [List.zip_cons_cons, List.map_cons, List.sum_cons] at this ⊢
      rw [this]
      simp [add_comm]

/-- Bound of the one-dimensional integration-by-parts error with the tabulated Gauss rules. -/
noncomputable def dirEps (n p q : Nat) : ℝ := n * (tabEps q p * (2 * p) * 4 ^ (p + 1))
/-- Bound of the derivative splines. -/
noncomputable def dirBound (n p : Nat) : ℝ := 1 + p * n

theorem dirEps_nonneg (n p q : Nat) : 0 ≤ dirEps n p q := by
  have := tabEps_nonneg q p
  unfold dirEps; positivity
theorem dirBound_one (n p : Nat) : 1 ≤ dirBound n p := by
  unfold dirBound
  have : (0 : ℝ) ≤ p * n := by positivity
  linarith

theorem clamped_gap {n p : Nat} (hp : 1 ≤ p) (h : p < n) {i : Nat} (hi : i < n - 1) :
    1 / ((n - p : Nat) : ℝ) ≤ clampedKnot ℝ n p (i + p + 1) - clampedKnot ℝ n p (i + 1) := by
  have hm := monotone_clampedKnot (K := ℝ) n p h
  obtain ⟨e, he, h1, h2⟩ : ∃ e, e < n - p ∧ i + 1 ≤ p + e ∧ p + (e + 1) ≤ i + p + 1 := by
    by_cases hc : i + 1 ≤ p
    · exact ⟨0, by omega, by omega, by omega⟩
    · exact ⟨i + 1 - p, by omega, by omega, by omega⟩
  have a1 := hm h1
  have a2 := hm h2
  rw [clampedKnot_elem n p e he.le h] at a1
  rw [clampedKnot_elem n p (e + 1) he h] at a2
  have : (1 : ℝ) / ((n - p : Nat) : ℝ) = ((e + 1 : Nat) : ℝ) / ((n - p : Nat) : ℝ) - (e : ℝ) / ((n - p : Nat) : ℝ) := by
    push_cast; ring
  rw [this]; linarith

theorem clamped_deriv_bound {n p : Nat} (hp : 1 ≤ p) (h : p < n) (hfine : n - p ≤ 99900) {s : SplineBasis ℝ}
    (hs : SplineBasis.mk? n p "clamped" = .ok s) {d : DerivativeSpline ℝ} (hd : DerivativeSpline.mk? s = .ok d)
    {x : ℝ} (h0 : 0 < x) (h1 : x < 1) (i : Nat) : |d.evaluate x i| ≤ dirBound n p := by
  have hm := monotone_clampedKnot (K := ℝ) n p h
  rw [C08_clamped_derivative_values n p hp h hfine s hs d hd x h1.ne i]
  have hb := dirBound_one n p
  split
  · rename_i hi
    have hg := clamped_gap hp h hi
    have hM : (0 : ℝ) < ((n - p : Nat) : ℝ) := by exact_mod_cast (by omega : 0 < n - p)
    have hN0 := N_nonneg hm (p - 1) (i + 1) x
    have hN1 : N (clampedKnot ℝ n p) (p - 1) (i + 1) x ≤ 1 := by
      rw [← N_sum hm (p := p - 1) (m := n) (x := x) (by rw [clampedKnot_zero n p _ (by omega)]; exact h0.le)
        (by rw [clampedKnot_one n p _ le_rfl h]; exact h1)]
      exact single_le_sum (f := fun i => N (clampedKnot ℝ n p) (p - 1) i x) (fun j _ => N_nonneg hm _ _ _) (mem_range.mpr (by omega))
    have hgp : 0 < clampedKnot ℝ n p (i + p + 1) - clampedKnot ℝ n p (i + 1) := lt_of_lt_of_le (by positivity) hg
    rw [abs_of_nonneg (by positivity)]
    have hMn : ((n - p : Nat) : ℝ) ≤ n := by exact_mod_cast Nat.sub_le n p
    have hg' : (1 : ℝ) ≤ ((n - p : Nat) : ℝ) * (clampedKnot ℝ n p (i + p + 1) - clampedKnot ℝ n p (i + 1)) := by
      calc (1 : ℝ) = ((n - p : Nat) : ℝ) * (1 / ((n - p : Nat) : ℝ)) := by field_simp
        _ ≤ _ := mul_le_mul_of_nonneg_left hg hM.le
    rw [div_le_iff₀ hgp]
    have p0 : (0 : ℝ) ≤ p := by positivity
    unfold dirBound
    generalize clampedKnot ℝ n p (i + p + 1) - clampedKnot ℝ n p (i + 1) = g at *
    generalize N (clampedKnot ℝ n p) (p - 1) (i + 1) x = y at *
    have : (1 : ℝ) ≤ n * g := hg'.trans (mul_le_mul_of_nonneg_right hMn hgp.le)
    calc p * y ≤ p * 1 := mul_le_mul_of_nonneg_left hN1 p0
      _ ≤ p * (n * g) := mul_le_mul_of_nonneg_left this p0
      _ ≤ _ := by nlinarith
  · rw [abs_zero]; linarith

theorem periodic_deriv_bound {n p : Nat} (hp : 1 ≤ p) (hn : 1 ≤ n) (h : p < n ∨ p = 1) (hfine : n ≤ 49975) {s : SplineBasis ℝ}
    (hs : SplineBasis.mk? n p "periodic" = .ok s) {d : DerivativeSpline ℝ} (hd : DerivativeSpline.mk? s = .ok d)
    {x : ℝ} (h0 : 0 < x) (h1 : x < 1) {i : Nat} (hi : i < n) : |d.evaluate x i| ≤ dirBound n p := by
  have hsm := strictMono_periodicKnot (K := ℝ) n p hn
  have hm := hsm.monotone
  rw [periodic_derivative_values n p hp hn h hfine s hs d hd x i hi]
  have hsum : ∑ j ∈ range (n + p), N (periodicKnot ℝ n p) (p - 1) j x = 1 := by
    refine N_sum hm ?_ ?_
    · refine (hm (show p - 1 ≤ p by omega)).trans ?_
      rw [periodicKnot_p]; exact h0.le
    · rw [periodicKnot_add n p p hn, periodicKnot_p]; linarith
  have hnn : ∀ j ∈ range (n + p), 0 ≤ N (periodicKnot ℝ n p) (p - 1) j x := fun j _ => N_nonneg hm _ _ _
  have hv : |(if i < p - 1 then
        N (periodicKnot ℝ n p) (p - 1) (i+1) x + N (periodicKnot ℝ n p) (p - 1) (n + i + 1) x
      else N (periodicKnot ℝ n p) (p - 1) (i+1) x)| ≤ 1 := by
    split
    · rw [abs_of_nonneg (add_nonneg (N_nonneg hm _ _ _) (N_nonneg hm _ _ _)), ← hsum]
      have hsub : ({i + 1, n + i + 1} : Finset Nat) ⊆ range (n + p) := by
        intro a ha
        simp only [mem_insert, mem_singleton] at ha
        rw [mem_range]; omega
      have := sum_le_sum_of_subset_of_nonneg hsub (f := fun j => N (periodicKnot ℝ n p) (p - 1) j x) (fun j hj _ => hnn j hj)
      rwa [sum_pair (by omega)] at this
    · rw [abs_of_nonneg (N_nonneg hm _ _ _), ← hsum]
      exact single_le_sum (f := fun j => N (periodicKnot ℝ n p) (p - 1) j x) hnn (mem_range.mpr (by omega))
  rw [abs_mul, Nat.abs_cast]
  unfold dirBound
  have p1 : (1 : ℝ) ≤ p := by exact_mod_cast hp
  have n0 : (0 : ℝ) ≤ n := by positivity
  nlinarith [mul_le_mul_of_nonneg_left hv n0, mul_le_mul_of_nonneg_right p1 n0]

/-- What one direction provides. -/
structure DirIBP (n nd : Nat) (p q : Nat) (s : SplineBasis ℝ) (d : DerivativeSpline ℝ) (xw : List ℝ × List ℝ) : Prop where
  len : xw.1.length = xw.2.length
  pos : ∀ i < xw.1.length, 0 ≤ xw.2.getD i 0
  sum : ∑ i ∈ range xw.1.length, xw.2.getD i 0 ≤ 2
  val : ∀ x ∈ xw.1, ∀ i < n, |s.evaluate x i| ≤ 1
  dval : ∀ x ∈ xw.1, ∀ i < nd, |d.evaluate x i| ≤ dirBound n p
  ibp : ∀ i < n, ∀ i' < n, |∑ a ∈ range xw.1.length, xw.2.getD a 0 *
    (s.evaluate (xw.1.getD a 0) i * deriv (fun y => s.evaluate y i') (xw.1.getD a 0)
      + deriv (fun y => s.evaluate y i) (xw.1.getD a 0) * s.evaluate (xw.1.getD a 0) i')
      - (s.evaluate 1 i * s.evaluate 1 i' - s.evaluate 0 i * s.evaluate 0 i')| ≤ dirEps n p q

theorem sum_getD (ws : List ℝ) : ∑ i ∈ range ws.length, ws.getD i 0 = ws.sum := by
  induction ws with
  | nil => simp
  | cons w ws ih =>
    rw [List.length_cons, Finset.sum_range_succ', List.sum_cons, ← ih]
    simp [add_comm]

theorem getD_nonneg {ws : List ℝ} (h : ∀ w ∈ ws, 0 < w) (i : Nat) : 0 ≤ ws.getD i 0 := by
  by_cases hi : i < ws.length
  · rw [List.getD_eq_getElem?_getD, List.getElem?_eq_getElem hi]
    exact (h _ (List.getElem_mem _)).le
  · rw [List.getD_eq_getElem?_getD, List.getElem?_eq_none (by omega)]; rfl

theorem DirOK.ibp {n p q : Nat} {ty : String} (h : DirOK n p q ty) (hq : q ≤ 10) {s : SplineBasis ℝ} {d : DerivativeSpline ℝ}
    (hs : SplineBasis.mk? n p ty = .ok s) (hd : DerivativeSpline.mk? s = .ok d) {xw : List ℝ × List ℝ}
    (hsel : selectQuadrature s q = .ok xw) : DirIBP n (Form.dsize n ty) p q s d xw := by
  have pow4 : ((2 : ℝ) ^ (p + 1)) ^ 2 = 4 ^ (p + 1) := by rw [← pow_mul, mul_comm, pow_mul]; norm_num
  rcases h with ⟨rfl, a, b, c, e⟩ | ⟨rfl, a, b, c, e, f⟩ | ⟨rfl, rfl, _⟩
  · obtain ⟨xs, ws, e1, e2, l1, l2, hin, hp, hsum⟩ := C11_select_rule n p a "clamped" (n - p) (Or.inl ⟨rfl, b, rfl⟩) s hs q (by omega) hq
    rw [hsel] at e1
    obtain rfl := Except.ok.inj e1
    have hl : xs.length = ws.length := l1.trans l2.symm
    refine ⟨hl, fun i _ => getD_nonneg hp i, ?_, ?_, ?_, ?_⟩
    · simp only [hl]
      rw [sum_getD]
      have := (abs_le.mp hsum).2
      norm_num at this ⊢
      linarith
    · intro x hx i hi
      obtain ⟨x0, x1⟩ := C03_clamped_bounds n p b c s hs x (hin x hx).1.le (hin x hx).2.le i hi
      rwa [abs_of_nonneg x0]
    · intro x hx i _
      exact clamped_deriv_bound a b c hs hd (hin x hx).1 (hin x hx).2 i
    · intro i hi i' hi'
      have hr := applyRule_range xs ws hl (fun x => s.evaluate x i * deriv (fun y => s.evaluate y i') x + deriv (fun y => s.evaluate y i) x * s.evaluate x i')
      rw [← hr, e2]
      have := rule_ibp (m := n - p) (k := q) (p := p) (by omega) (by omega) hq (show p ≤ q by omega) (K := 2 ^ p) (by positivity)
        (piecewise_clamped a b c hs hi) (piecewise_clamped a b c hs hi')
      refine this.trans ?_
      unfold dirEps
      have hMn : ((n - p : Nat) : ℝ) ≤ n := by exact_mod_cast Nat.sub_le n p
      have h4 : ((2 : ℝ) ^ p) ^ 2 ≤ 4 ^ (p + 1) := by
        rw [← pow4]
        exact pow_le_pow_left₀ (by positivity) (pow_le_pow_right₀ (by norm_num) (by omega)) 2
      have ht := tabEps_nonneg q p
      exact mul_le_mul hMn (mul_le_mul_of_nonneg_left h4 (by positivity)) (by positivity) (by positivity)
  · obtain ⟨xs, ws, e1, e2, l1, l2, hin, hp, hsum⟩ := C11_select_rule n p a "periodic" n (Or.inr ⟨rfl, c, b, rfl⟩) s hs q (by omega) hq
    rw [hsel] at e1
    obtain rfl := Except.ok.inj e1
    have hl : xs.length = ws.length := l1.trans l2.symm
    refine ⟨hl, fun i _ => getD_nonneg hp i, ?_, ?_, ?_, ?_⟩
    · simp only [hl]
      rw [sum_getD]
      have := (abs_le.mp hsum).2
      norm_num at this ⊢
      linarith
    · intro x hx i hi
      obtain ⟨x0, x1⟩ := C03_periodic_bounds n p a c b e s hs x (hin x hx).1.le (hin x hx).2.le i hi
      rwa [abs_of_nonneg x0]
    · intro x hx i hi
      exact periodic_deriv_bound a c b e hs hd (hin x hx).1 (hin x hx).2 (by simpa [Form.dsize] using hi)
    · intro i hi i' hi'
      have hr := applyRule_range xs ws hl (fun x => s.evaluate x i * deriv (fun y => s.evaluate y i') x + deriv (fun y => s.evaluate y i) x * s.evaluate x i')
      rw [← hr, e2]
      have := rule_ibp (m := n) (k := q) (p := p) c (by omega) hq (show p ≤ q by omega) (K := 2 ^ (p + 1)) (by positivity)
        (piecewise_periodic a c b e hs hi) (piecewise_periodic a c b e hs hi')
      refine this.trans (le_of_eq ?_)
      unfold dirEps
      rw [pow4]
  · have hty : s.type = "constant" := (Form.spline_mk?_ok hs).2.2
    have hdt : d.type = "constant" := by
      unfold DerivativeSpline.mk? at hd
      rw [if_neg (by simp [hty])] at hd
      split at hd
      · cases hd
      · cases hd; exact hty
    have e1 : ∀ y i, s.evaluate y i = 1 := by
      intro y i; unfold SplineBasis.evaluate; simp [hty]
    have e2 : ∀ y i, d.evaluate y i = 1 := by
      intro y i; unfold DerivativeSpline.evaluate; simp [hdt]
    have hx : xw.1.length = xw.2.length ∧ xw.2 = [1] := by
      have := hsel
      unfold selectQuadrature at this
      rw [hty] at this
      simp only [show ¬ ("constant" = "clamped") by decide, show ¬ ("constant" = "periodic") by decide,
        show ¬ ("constant" = "fourier") by decide, if_false, spectralQuad, show (1 ≤ 1 ∧ 1 ≤ 10) by decide, and_self, if_true] at this
      obtain rfl := Except.ok.inj this
      simp [nodesAndWeights, gauss1Nodes, gauss1Weights]
      norm_num
    obtain ⟨hl, hw⟩ := hx
    refine ⟨hl, ?_, ?_, ?_, ?_, ?_⟩
    · intro i hi
      exact getD_nonneg (by rw [hw]; simp) i
    · rw [hl, sum_getD, hw]; norm_num
    · intro x _ i _; rw [e1]; simp
    · intro x _ i _; rw [e2]; simp [dirBound_one]
    · intro i _ i' _
      simp only [e1, deriv_const, mul_zero, zero_mul, add_zero, Finset.sum_const_zero, sub_self, abs_zero]
      exact dirEps_nonneg _ _ _

end Mrx
