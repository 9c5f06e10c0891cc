import Verif.Spec.SplineSpace
import Verif.Proofs.Marsden
import Verif.Proofs.LocalPoly
import Verif.Proofs.LocalIndep
import Verif.Proofs.BSplineDeriv
import Mathlib.Algebra.Polynomial.FieldDivision
import Mathlib.Analysis.Calculus.Deriv.Polynomial

/-! # The B-spline space is the space of splines (Curry-Schoenberg) -/

set_option linter.unusedSectionVars false

namespace Mrx.Spec
open Finset Polynomial

/-! ## Divisibility and derivatives -/

theorem dvd_iff_derivs (D : ℝ[X]) (a : ℝ) (k : Nat) :
    (X - C a) ^ k ∣ D ↔ ∀ m < k, (derivative^[m] D).eval a = 0 := by
  by_cases h0 : D = 0
  · subst h0; simp
  rw [← le_rootMultiplicity_iff h0]
  rcases k with _ | k
  · simp
  · rw [Nat.succ_le_iff, lt_rootMultiplicity_iff_isRoot_iterate_derivative h0]
    simp only [IsRoot.def, Nat.lt_succ_iff]

theorem joined_iff (p : Nat) (P Q : ℝ[X]) (a : ℝ) : JoinedAt p P a Q a ↔ (X - C a) ^ p ∣ Q - P := by
  rw [dvd_iff_derivs]
  unfold JoinedAt
  refine forall_congr' fun m => forall_congr' fun _ => ?_
  rw [iterate_derivative_sub, eval_sub, sub_eq_zero, eq_comm]

theorem dvd_of_derivative {D : ℝ[X]} {a : ℝ} {k : Nat} (h0 : D.eval a = 0) (h : (X - C a) ^ k ∣ derivative D) :
    (X - C a) ^ (k + 1) ∣ D := by
  rw [dvd_iff_derivs] at h ⊢
  intro m hm
  rcases m with _ | m
  · exact h0
  · rw [Function.iterate_succ_apply]
    exact h m (by omega)

theorem eq_C_mul_of_dvd {D : ℝ[X]} {a : ℝ} {p : Nat} (h : (X - C a) ^ p ∣ D) (hd : D.natDegree ≤ p) :
    ∃ b, D = C b * (X - C a) ^ p := by
  obtain ⟨q, hq⟩ := h
  by_cases h0 : q = 0
  · exact ⟨0, by rw [hq, h0]; simp⟩
  have hm : ((X - C a) ^ p : ℝ[X]).Monic := (monic_X_sub_C a).pow p
  have : D.natDegree = p + q.natDegree := by
    rw [hq, hm.natDegree_mul' h0, natDegree_pow, natDegree_X_sub_C, mul_one]
  have hz : q.natDegree = 0 := by omega
  refine ⟨q.coeff 0, ?_⟩
  rw [hq, mul_comm]
  congr 1
  exact eq_C_of_natDegree_eq_zero hz

theorem poly_ext_interval {P Q : ℝ[X]} {a b : ℝ} (hab : a < b) (h : ∀ x, a < x → x < b → P.eval x = Q.eval x) : P = Q := by
  refine Polynomial.eq_of_infinite_eval_eq P Q ((Set.Ioo_infinite hab).mono fun x hx => ?_)
  exact h x hx.1 hx.2

/-! ## Derivative of the pieces -/

theorem NP_derivative {τ : Nat → ℝ} (hτ : Monotone τ) (e p i : Nat) (he : τ e < τ (e + 1)) :
    derivative (NP τ e (p + 1) i) = C ((p : ℝ) + 1) * (C (1 / (τ (i + p + 1) - τ i)) * NP τ e p i - C (1 / (τ (i + p + 2) - τ (i + 1))) * NP τ e p (i + 1)) := by
  refine poly_ext_interval he fun x h1 h2 => ?_
  have hk : ∀ k, τ k ≠ x := by
    intro k hk
    rcases Nat.lt_or_ge e k with h | h
    · have := hτ (show e + 1 ≤ k by omega); linarith
    · have := hτ h; linarith
  have d1 := N_hasDerivAt hτ p i x hk
  have d2 := (NP τ e (p + 1) i).hasDerivAt x
  have ev : (fun y => N τ (p + 1) i y) =ᶠ[nhds x] fun y => (NP τ e (p + 1) i).eval y := by
    filter_upwards [Ioo_mem_nhds h1 h2] with y hy
    rw [NP_eval hτ e (p + 1) i hy.1.le hy.2]
  have := d2.unique (d1.congr_of_eventuallyEq ev.symm)
  rw [this]
  simp only [eval_mul, eval_C, eval_sub, NP_eval hτ e _ _ h1.le h2]
  ring

theorem NP_dvd {τ : Nat → ℝ} (hτ : Monotone τ) (e p i : Nat) (h1 : τ e < τ (e + 1)) (h2 : τ (e + 1) < τ (e + 2)) :
    (X - C (τ (e + 1))) ^ p ∣ NP τ (e + 1) p i - NP τ e p i := by
  induction p generalizing i with
  | zero => simp
  | succ p ih =>
    refine dvd_of_derivative ?_ ?_
    · rw [eval_sub, NP_match τ e p i h1 h2, sub_self]
    · rw [derivative_sub, NP_derivative hτ e p i h1, NP_derivative hτ (e + 1) p i h2, ← mul_sub]
      refine Dvd.dvd.mul_left ?_ _
      have : C (1 / (τ (i + p + 1) - τ i)) * NP τ (e + 1) p i - C (1 / (τ (i + p + 2) - τ (i + 1))) * NP τ (e + 1) p (i + 1)
          - (C (1 / (τ (i + p + 1) - τ i)) * NP τ e p i - C (1 / (τ (i + p + 2) - τ (i + 1))) * NP τ e p (i + 1))
          = C (1 / (τ (i + p + 1) - τ i)) * (NP τ (e + 1) p i - NP τ e p i)
            - C (1 / (τ (i + p + 2) - τ (i + 1))) * (NP τ (e + 1) p (i + 1) - NP τ e p (i + 1)) := by ring
      rw [this]
      exact dvd_sub ((ih i).mul_left _) ((ih (i + 1)).mul_left _)

/-- The piece on interval `e` of a combination of B-splines. -/
noncomputable def combPiece (τ : Nat → ℝ) (p m : Nat) (c : Nat → ℝ) (e : Nat) : ℝ[X] := ∑ i ∈ range m, C (c i) * NP τ e p i

theorem combPiece_eval {τ : Nat → ℝ} (hτ : Monotone τ) (p m : Nat) (c : Nat → ℝ) (e : Nat) {x : ℝ} (h1 : τ e ≤ x) (h2 : x < τ (e + 1)) :
    (combPiece τ p m c e).eval x = ∑ i ∈ range m, c i * N τ p i x := by
  unfold combPiece
  rw [eval_finsetSum]
  exact sum_congr rfl fun i _ => by rw [eval_mul, eval_C, NP_eval hτ e p i h1 h2]

theorem combPiece_natDegree (τ : Nat → ℝ) (p m : Nat) (c : Nat → ℝ) (e : Nat) : (combPiece τ p m c e).natDegree ≤ p := by
  refine natDegree_sum_le_of_forall_le _ _ fun i _ => ?_
  exact (natDegree_C_mul_le _ _).trans (NP_natDegree τ e p i)

theorem combPiece_joined {τ : Nat → ℝ} (hτ : Monotone τ) (p m : Nat) (c : Nat → ℝ) (e : Nat) (h1 : τ e < τ (e + 1)) (h2 : τ (e + 1) < τ (e + 2)) :
    JoinedAt p (combPiece τ p m c e) (τ (e + 1)) (combPiece τ p m c (e + 1)) (τ (e + 1)) := by
  rw [joined_iff]
  unfold combPiece
  rw [← sum_sub_distrib]
  refine dvd_sum fun i _ => ?_
  rw [← mul_sub]
  exact (NP_dvd hτ e p i h1 h2).mul_left _

/-! ## Reproduction -/

/-- Coefficients of a polynomial of degree at most `p`. -/
noncomputable def polyCoef (τ : Nat → ℝ) (p : Nat) (P : ℝ[X]) (i : Nat) : ℝ :=
  ∑ k ∈ range (p + 1), P.coeff k * (knotSym τ p i k / p.choose k)

theorem polyCoef_sum {τ : Nat → ℝ} {p m : Nat} {x : ℝ} {a : Nat → ℝ} (h : ∀ y, ∑ i ∈ range m, dualPoly τ p i y * a i = (x - y) ^ p)
    (P : ℝ[X]) (hd : P.natDegree ≤ p) : ∑ i ∈ range m, polyCoef τ p P i * a i = P.eval x := by
  unfold polyCoef
  rw [Polynomial.eval_eq_sum_range' (Nat.lt_succ_of_le hd)]
  simp only [sum_mul]
  rw [sum_comm]
  refine sum_congr rfl fun k hk => ?_
  have hk' : k ≤ p := Nat.lt_succ_iff.mp (mem_range.mp hk)
  have := sym_of_marsden h k hk'
  have hc : (p.choose k : ℝ) ≠ 0 := Nat.cast_ne_zero.mpr (Nat.choose_pos hk').ne'
  calc ∑ i ∈ range m, P.coeff k * (knotSym τ p i k / p.choose k) * a i = P.coeff k / p.choose k * ∑ i ∈ range m, knotSym τ p i k * a i := by
        rw [mul_sum]; exact sum_congr rfl fun i _ => by ring
    _ = _ := by rw [this]; field_simp

/-- Curry-Schoenberg on a general simple-knot range `[τ p, τ m)`. -/
theorem pieces_are_comb {τ : Nat → ℝ} (hτ : Monotone τ) {p m : Nat} (hpm : p < m) (hs : ∀ e, p ≤ e → e < m → τ e < τ (e + 1))
    (P : Nat → ℝ[X]) (hd : ∀ e, p ≤ e → e < m → (P e).natDegree ≤ p)
    (hj : ∀ e, p ≤ e → e + 1 < m → JoinedAt p (P e) (τ (e + 1)) (P (e + 1)) (τ (e + 1))) :
    ∃ c : Nat → ℝ, ∀ e, p ≤ e → e < m → P e = combPiece τ p m c e := by
  have hb : ∀ e, ∃ b, p ≤ e → e + 1 < m → P (e + 1) - P e = C b * (X - C (τ (e + 1))) ^ p := by
    intro e
    by_cases h : p ≤ e ∧ e + 1 < m
    · obtain ⟨b, hb⟩ := eq_C_mul_of_dvd ((joined_iff _ _ _ _).mp (hj e h.1 h.2))
        ((natDegree_sub_le _ _).trans (max_le (hd (e + 1) (by omega) h.2) (hd e h.1 (by omega))))
      exact ⟨b, fun _ _ => hb⟩
    · exact ⟨0, fun h1 h2 => absurd ⟨h1, h2⟩ h⟩
  choose b hb using hb
  refine ⟨fun i => polyCoef τ p (P p) i + ∑ j ∈ Ico p (m - 1), b j * (if j + 1 ≤ i then dualPoly τ p i (τ (j + 1)) else 0), ?_⟩
  have tele : ∀ d, p + d < m → P (p + d) = P p + ∑ j ∈ Ico p (p + d), C (b j) * (X - C (τ (j + 1))) ^ p := by
    intro d
    induction d with
    | zero => intro _; simp
    | succ d ih =>
      intro hd'
      have h1 := ih (by omega)
      have h2 := hb (p + d) (by omega) (by omega)
      rw [← add_assoc, sum_Ico_succ_top (by omega), ← add_assoc, ← h1, ← h2]
      ring
  intro e he1 he2
  obtain ⟨d, rfl⟩ : ∃ d, e = p + d := ⟨e - p, by omega⟩
  refine poly_ext_interval (hs _ he1 he2) fun x hx1 hx2 => ?_
  rw [combPiece_eval hτ p m _ _ hx1.le hx2, tele d he2, eval_add, eval_finsetSum]
  have hx0 : τ p ≤ x := (hτ he1).trans hx1.le
  have hxm : x < τ m := hx2.trans_le (hτ (by omega))
  simp only [add_mul, sum_add_distrib, sum_mul]
  rw [polyCoef_sum (fun y => marsden hτ hx0 hxm y) (P p) (hd p le_rfl hpm), sum_comm]
  congr 1
  have : ∀ j ∈ Ico p (m - 1), (∑ i ∈ range m, b j * (if j + 1 ≤ i then dualPoly τ p i (τ (j + 1)) else 0) * N τ p i x)
      = if j < p + d then b j * (x - τ (j + 1)) ^ p else 0 := by
    intro j hj'
    have e1 := marsden_truncated hτ hx0 hxm (j + 1)
    calc _ = b j * ∑ i ∈ range m, (if j + 1 ≤ i then dualPoly τ p i (τ (j + 1)) else 0) * N τ p i x := by
          rw [mul_sum]; exact sum_congr rfl fun i _ => by ring
      _ = _ := by
        rw [e1]
        by_cases hc : j < p + d
        · rw [if_pos hc, if_pos ((hτ (by omega : j + 1 ≤ p + d)).trans hx1.le)]
        · rw [if_neg hc, if_neg (not_le.mpr (hx2.trans_le (hτ (by omega)))), mul_zero]
  rw [sum_congr rfl this, ← sum_filter]
  have hf : (Ico p (m - 1)).filter (fun j => j < p + d) = Ico p (p + d) := by
    ext j; simp only [mem_filter, mem_Ico]; omega
  rw [hf]
  exact sum_congr rfl fun j _ => by simp

end Mrx.Spec
