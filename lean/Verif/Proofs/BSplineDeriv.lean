import Verif.Proofs.SplineEval
import Mathlib.Analysis.Calculus.Deriv.Mul
import Mathlib.Analysis.Calculus.Deriv.Add

/-! # Derivative of the textbook B-spline away from the knots -/

set_option linter.unusedSectionVars false

namespace Mrx.Spec

open Filter Topology

theorem N_zero_eventually (τ : Nat → ℝ) (i : Nat) (x : ℝ) (h : ∀ k, τ k ≠ x) :
    HasDerivAt (fun y => N τ 0 i y) 0 x := by
  have hev : (fun y => N τ 0 i y) =ᶠ[𝓝 x] fun _ => N τ 0 i x := by
    have h0 : ∀ᶠ y in 𝓝 x, (τ i ≤ y ↔ τ i ≤ x) := by
      rcases lt_or_gt_of_ne (h i) with hlt | hgt
      · filter_upwards [eventually_gt_nhds hlt] with y hy
        exact ⟨fun _ => hlt.le, fun _ => le_of_lt hy⟩
      · filter_upwards [eventually_lt_nhds hgt] with y hy
        exact ⟨fun hc => absurd hy (not_lt.mpr hc), fun hc => absurd hgt (not_lt.mpr hc)⟩
    have h1 : ∀ᶠ y in 𝓝 x, (y < τ (i+1) ↔ x < τ (i+1)) := by
      rcases lt_or_gt_of_ne (h (i+1)) with hlt | hgt
      · filter_upwards [eventually_gt_nhds hlt] with y hy
        exact ⟨fun hc => absurd hc (not_lt.mpr (le_of_lt hy)), fun hc => absurd hlt (not_lt.mpr hc.le)⟩
      · filter_upwards [eventually_lt_nhds hgt] with y hy
        exact ⟨fun _ => hgt, fun _ => hy⟩
    filter_upwards [h0, h1] with y a b
    simp only [N, a, b]
  exact (hasDerivAt_const x (N τ 0 i x)).congr_of_eventuallyEq hev

/-- The classical derivative formula (with `a / 0 = 0`). -/
theorem N_hasDerivAt {τ : Nat → ℝ} (hτ : Monotone τ) (p i : Nat) (x : ℝ) (h : ∀ k, τ k ≠ x) :
    HasDerivAt (fun y => N τ (p+1) i y)
      (((p : ℝ) + 1) * (N τ p i x / (τ (i+p+1) - τ i) - N τ p (i+1) x / (τ (i+p+2) - τ (i+1)))) x := by
  induction p generalizing i with
  | zero =>
    have d1 := ((hasDerivAt_id x).sub_const (τ i)).div_const (τ (i+0+1) - τ i)
    have d2 := ((hasDerivAt_id x).const_sub (τ (i+0+2))).div_const (τ (i+0+2) - τ (i+1))
    have := (d1.mul (N_zero_eventually τ i x h)).add (d2.mul (N_zero_eventually τ (i+1) x h))
    refine this.congr_deriv ?_
    simp; ring
  | succ p ih =>
    have d1 := ((hasDerivAt_id x).sub_const (τ i)).div_const (τ (i+(p+1)+1) - τ i)
    have d2 := ((hasDerivAt_id x).const_sub (τ (i+(p+1)+2))).div_const (τ (i+(p+1)+2) - τ (i+1))
    have := (d1.mul (ih i)).add (d2.mul (ih (i+1)))
    refine this.congr_deriv ?_
    simp only [id, N]
    rw [show i + 1 + p + 1 = i + p + 2 by omega, show i + 1 + p + 2 = i + p + 3 by omega,
      show i + 1 + 1 = i + 2 by omega, show i + (p+1) + 1 = i + p + 2 by omega,
      show i + (p+1) + 2 = i + p + 3 by omega]
    push_cast
    by_cases hb : N τ p (i+1) x = 0
    · simp only [hb]; ring
    · obtain ⟨a, b⟩ := N_support hτ hb
      rw [show i + 1 + p + 1 = i + p + 2 by omega] at b
      have h1 : τ i ≤ τ (i+1) := hτ (by omega)
      have h2 : τ (i+p+2) ≤ τ (i+p+3) := hτ (by omega)
      have e0 : τ (i+p+2) - τ (i+1) ≠ 0 := by linarith [a.trans_lt b]
      have e1 : τ (i+p+2) - τ i ≠ 0 := by linarith [a.trans_lt b]
      have e2 : τ (i+p+3) - τ (i+1) ≠ 0 := by linarith [a.trans_lt b]
      generalize N τ p i x = A
      generalize N τ p (i+1) x = B at hb
      generalize N τ p (i+2) x = C
      have key : B * ((τ (i+p+2) - x) / (τ (i+p+2) - τ i) + (x - τ i) / (τ (i+p+2) - τ i)
          - (x - τ (i+1)) / (τ (i+p+3) - τ (i+1)) - (τ (i+p+3) - x) / (τ (i+p+3) - τ (i+1))) = 0 := by
        rw [mul_eq_zero]; right; field_simp; ring
      have := congrArg (fun z => ((p:ℝ)+1) * z / (τ (i+p+2) - τ (i+1))) key
      simp only [mul_zero, zero_div] at this
      ring_nf at this ⊢
      linarith

end Mrx.Spec
