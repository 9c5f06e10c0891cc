import Verif.Proofs.Marsden
import Verif.Spec.SmoothDir
import Mathlib.Algebra.Polynomial.Derivative
import Mathlib.Analysis.Calculus.MeanValue
import Mathlib.Analysis.Calculus.Deriv.Polynomial
import Mathlib.Data.Nat.Choose.Sum
import Mathlib.Algebra.BigOperators.Field

/-!
# A quasi-interpolant of full order

The functionals of de Boor and Fix: `λ_i f = 1/p! ∑ (-1)^(p-k) ψ_i^(p-k)(a) f^(k)(a)` with `ψ_i(y) = ∏ (τ_{i+l} - y)`. On polynomials of degree at most `p` they do not depend on the base
point `a` and give the coefficients of the B-splines; by Taylor's formula the resulting spline is within `M (2H)^(p+1) / (p+1)!` of `f`, where `M` bounds the derivative of order `p + 1` and
`H` the width of the supports.
-/

namespace Mrx.Spec
open Finset Polynomial

/-- `ψ_i`. -/
noncomputable def dualP (τ : Nat → ℝ) (p i : Nat) : ℝ[X] := ∏ l ∈ range p, (C (τ (i + 1 + l)) - X)

/-- The functional with base point `a` for the derivatives `g 0, g 1, ..., g p` at `a`. -/
noncomputable def dbf (τ : Nat → ℝ) (p i : Nat) (a : ℝ) (g : Nat → ℝ) : ℝ :=
  (∑ k ∈ range (p + 1), (-1) ^ (p - k) * (derivative^[p - k] (dualP τ p i)).eval a * g k) / p.factorial

theorem dualP_eval (τ : Nat → ℝ) (p i : Nat) (y : ℝ) : (dualP τ p i).eval y = dualPoly τ p i y := by
  unfold dualP dualPoly
  rw [eval_prod]
  exact prod_congr rfl fun l _ => by simp

theorem dualP_natDegree (τ : Nat → ℝ) (p i : Nat) : (dualP τ p i).natDegree ≤ p := by
  unfold dualP
  refine (natDegree_prod_le _ _).trans ?_
  calc _ ≤ ∑ l ∈ range p, 1 := sum_le_sum fun l _ => by
        refine (natDegree_sub_le _ _).trans ?_
        simp
    _ = p := by simp

/-- On polynomials of degree at most `p` the base point does not matter. -/
theorem dbf_base (τ : Nat → ℝ) (p i : Nat) (P : ℝ[X]) (hP : P.natDegree ≤ p) (a b : ℝ) :
    dbf τ p i a (fun k => (derivative^[k] P).eval a) = dbf τ p i b (fun k => (derivative^[k] P).eval b) := by
  obtain ⟨G, hG⟩ : ∃ G : ℝ[X], G = ∑ k ∈ range (p + 1), C ((-1) ^ (p - k)) * (derivative^[p - k] (dualP τ p i) * derivative^[k] P) := ⟨_, rfl⟩
  have z1 : derivative^[p + 1] P = 0 := iterate_derivative_eq_zero (by omega)
  have z2 : derivative^[p + 1] (dualP τ p i) = 0 := iterate_derivative_eq_zero (by have := dualP_natDegree τ p i; omega)
  have d0 : derivative G = 0 := by
    obtain ⟨T, hT⟩ : ∃ T : Nat → ℝ[X], T = fun k => C ((-1) ^ (p + 1 - k)) * (derivative^[p + 1 - k] (dualP τ p i) * derivative^[k] P) := ⟨_, rfl⟩
    have e : derivative G = ∑ k ∈ range (p + 1), (T (k + 1) - T k) := by
      rw [hG, derivative_sum]
      refine sum_congr rfl fun k hk => ?_
      have hk' : k ≤ p := Nat.lt_succ_iff.mp (mem_range.mp hk)
      rw [derivative_C_mul, derivative_mul, hT]
      beta_reduce
      rw [show p + 1 - (k + 1) = p - k by omega, show p + 1 - k = p - k + 1 by omega, ← Function.iterate_succ_apply' derivative, ← Function.iterate_succ_apply' derivative, pow_succ]
      simp only [Nat.succ_eq_add_one, mul_neg, mul_one, C_neg]
      ring
    rw [e, sum_range_sub, hT]
    beta_reduce
    rw [z1, show p + 1 - 0 = p + 1 by omega, z2]
    simp
  have cst : ∀ y, G.eval y = G.coeff 0 := by
    intro y
    rw [eq_C_of_derivative_eq_zero d0]
    simp
  have ev : ∀ y, dbf τ p i y (fun k => (derivative^[k] P).eval y) = G.eval y / p.factorial := by
    intro y
    unfold dbf
    rw [hG, eval_finsetSum]
    congr 1
    refine sum_congr rfl fun k _ => ?_
    rw [eval_mul, eval_C, eval_mul]
    ring
  rw [ev, ev, cst, cst]

/-- With the base point at `x` the combination picks the value. -/
theorem dbf_sum {τ : Nat → ℝ} {p m : Nat} {x : ℝ} {w : Nat → ℝ} (h : ∀ y, ∑ i ∈ range m, dualPoly τ p i y * w i = (x - y) ^ p) (g : Nat → ℝ) :
    ∑ i ∈ range m, dbf τ p i x g * w i = g 0 := by
  have e : ∑ i ∈ range m, C (w i) * dualP τ p i = C ((-1) ^ p) * (X - C x) ^ p := by
    refine Polynomial.funext fun y => ?_
    rw [eval_finsetSum, eval_mul, eval_C, eval_pow, eval_sub, eval_X, eval_C, ← mul_pow, show -1 * (y - x) = x - y by ring, ← h y]
    exact sum_congr rfl fun i _ => by rw [eval_mul, eval_C, dualP_eval, mul_comm]
  have key : ∀ k ≤ p, ∑ i ∈ range m, (derivative^[p - k] (dualP τ p i)).eval x * w i = if k = 0 then (-1) ^ p * (p.factorial : ℝ) else 0 := by
    intro k hk
    have := congrArg (fun P => (derivative^[p - k] P).eval x) e
    beta_reduce at this
    rw [iterate_derivative_sum, eval_finsetSum, iterate_derivative_C_mul, iterate_derivative_X_sub_pow] at this
    rw [sum_congr rfl fun i _ => by rw [iterate_derivative_C_mul, eval_mul, eval_C]] at this
    rw [sum_congr rfl fun i _ => mul_comm _ _, this, eval_mul, eval_C, show p - (p - k) = k by omega, eval_smul, eval_pow, eval_sub, eval_X, eval_C, sub_self]
    split_ifs with h0
    · rw [h0, Nat.sub_zero, Nat.descFactorial_self, pow_zero, nsmul_eq_mul, mul_one]
    · rw [zero_pow h0, smul_zero, mul_zero]
  unfold dbf
  have pf : (p.factorial : ℝ) ≠ 0 := by exact_mod_cast p.factorial_ne_zero
  calc ∑ i ∈ range m, (∑ k ∈ range (p + 1), (-1) ^ (p - k) * (derivative^[p - k] (dualP τ p i)).eval x * g k) / p.factorial * w i
      = (∑ k ∈ range (p + 1), (-1) ^ (p - k) * g k * ∑ i ∈ range m, (derivative^[p - k] (dualP τ p i)).eval x * w i) / p.factorial := by
        simp only [sum_div, sum_mul, mul_sum]
        rw [sum_comm]
        exact sum_congr rfl fun k _ => sum_congr rfl fun i _ => by ring
    _ = (∑ k ∈ range (p + 1), (-1) ^ (p - k) * g k * if k = 0 then (-1) ^ p * (p.factorial : ℝ) else 0) / p.factorial := by
        congr 1
        exact sum_congr rfl fun k hk => by rw [key k (Nat.lt_succ_iff.mp (mem_range.mp hk))]
    _ = g 0 := by
        rw [sum_eq_single 0]
        · rw [if_pos rfl, Nat.sub_zero]
          have : ((-1 : ℝ)) ^ p * (-1) ^ p = 1 := by rw [← mul_pow]; norm_num
          field_simp
          linear_combination g 0 * this
        · intro k _ hk; rw [if_neg hk, mul_zero]
        · intro hc; exact absurd (mem_range.mpr (by omega)) hc

/-- Size of the derivatives of `ψ_i` at a point within `H` of its zeros. -/
theorem dualP_bound (τ : Nat → ℝ) (p i : Nat) (a H : ℝ) (hH : 0 ≤ H) (h : ∀ l < p, |τ (i + 1 + l) - a| ≤ H) (m : Nat) :
    |(derivative^[m] (dualP τ p i)).eval a| ≤ p.descFactorial m * H ^ (p - m) := by
  induction p generalizing m with
  | zero =>
    rcases m with _ | m
    · simp [dualP]
    · have : dualP τ 0 i = C 1 := by simp [dualP]
      rw [this, iterate_derivative_C (Nat.succ_pos m)]
      simp
  | succ p ih =>
    have e : dualP τ (p + 1) i = C (τ (i + 1 + p)) * dualP τ p i - dualP τ p i * X := by
      unfold dualP
      rw [prod_range_succ]
      ring
    have hl := h p (by omega)
    have b0 := ih (fun l hl => h l (by omega)) m
    have b1 := ih (fun l hl => h l (by omega)) (m - 1)
    rw [e, iterate_derivative_sub, iterate_derivative_C_mul, iterate_derivative_mul_X, eval_sub, eval_mul, eval_C, eval_add, eval_mul, eval_X, eval_smul, nsmul_eq_mul]
    obtain ⟨A, hA⟩ : ∃ A, A = (derivative^[m] (dualP τ p i)).eval a := ⟨_, rfl⟩
    obtain ⟨B, hB⟩ : ∃ B, B = (derivative^[m - 1] (dualP τ p i)).eval a := ⟨_, rfl⟩
    rw [← hA] at b0 ⊢
    rw [← hB] at b1 ⊢
    rw [show τ (i + 1 + p) * A - (A * a + m * B) = (τ (i + 1 + p) - a) * A - m * B by ring]
    refine (abs_sub _ _).trans ?_
    rw [abs_mul, abs_mul, Nat.abs_cast]
    have t1 : |τ (i + 1 + p) - a| * |A| ≤ H * (p.descFactorial m * H ^ (p - m)) := mul_le_mul hl b0 (abs_nonneg _) hH
    have t2 : (m : ℝ) * |B| ≤ m * (p.descFactorial (m - 1) * H ^ (p - (m - 1))) := mul_le_mul_of_nonneg_left b1 (Nat.cast_nonneg m)
    refine (add_le_add t1 t2).trans (le_of_eq ?_)
    rcases m with _ | m
    · simp only [Nat.descFactorial_zero, Nat.cast_one, Nat.cast_zero, zero_mul, add_zero, one_mul, Nat.sub_zero]
      rw [pow_succ']
    · rw [Nat.add_sub_cancel, show p + 1 - (m + 1) = p - m by omega, Nat.succ_descFactorial_succ]
      rcases Nat.lt_or_ge m p with hm | hm
      · rw [Nat.descFactorial_succ, show p - m = p - (m + 1) + 1 by omega, pow_succ]
        have : ((p - (m + 1) + 1 : Nat) : ℝ) = (p : ℝ) - m := by
          rw [← Nat.cast_sub hm.le]; congr 1; omega
        push_cast
        push_cast at this
        rw [this]
        ring
      · rw [Nat.descFactorial_eq_zero_iff_lt.mpr (by omega : p < m + 1)]
        rcases Nat.lt_or_ge p m with hm' | hm'
        · rw [Nat.descFactorial_eq_zero_iff_lt.mpr hm']; simp
        · obtain rfl : m = p := le_antisymm hm' hm
          push_cast
          ring

theorem base_pow (a : ℝ) (q m : Nat) : (derivative^[m] ((C a - X) ^ q : ℝ[X])).eval a = if m = q then (-1) ^ q * (q.factorial : ℝ) else 0 := by
  have e : (C a - X : ℝ[X]) ^ q = C ((-1) ^ q) * (X - C a) ^ q := by
    rw [C_pow, ← mul_pow]
    congr 1
    simp
  rw [e, iterate_derivative_C_mul, iterate_derivative_X_sub_pow, eval_mul, eval_C, eval_smul, eval_pow, eval_sub, eval_X, eval_C, sub_self]
  split_ifs with h
  · rw [h, Nat.descFactorial_self, Nat.sub_self, pow_zero, nsmul_eq_mul, mul_one]
  · rcases Nat.lt_or_ge q m with h' | h'
    · rw [Nat.descFactorial_eq_zero_iff_lt.mpr h', zero_smul, mul_zero]
    · rw [zero_pow (by omega), smul_zero, mul_zero]

/-- All inner knots at the base point: the coefficient is the value. -/
theorem dbf_end (τ : Nat → ℝ) (p i : Nat) (a : ℝ) (g : Nat → ℝ) (h : ∀ l < p, τ (i + 1 + l) = a) : dbf τ p i a g = g 0 := by
  have e := dbf_sum (τ := τ) (p := p) (m := i + 1) (x := a) (w := fun j => if j = i then 1 else 0) (fun y => by
    rw [sum_eq_single i]
    · rw [if_pos rfl, mul_one]
      unfold dualPoly
      rw [prod_congr rfl fun l hl => by rw [h l (mem_range.mp hl)], prod_const, card_range]
    · intro j _ hj; rw [if_neg hj, mul_zero]
    · intro hc; exact absurd (mem_range.mpr (by omega)) hc) g
  rw [sum_eq_single i] at e
  · simpa using e
  · intro j _ hj; rw [if_neg hj, mul_zero]
  · intro hc; exact absurd (mem_range.mpr (by omega)) hc

/-- All inner knots but the last at the base point: value and slope. -/
theorem dbf_next (τ : Nat → ℝ) (q i : Nat) (a b : ℝ) (g : Nat → ℝ) (h : ∀ l < q, τ (i + 1 + l) = a) (hb : τ (i + 1 + q) = a + b) : dbf τ (q + 1) i a g = g 0 + b * g 1 / (q + 1) := by
  have e : dualP τ (q + 1) i = (C a - X) ^ (q + 1) + C b * (C a - X) ^ q := by
    unfold dualP
    rw [prod_range_succ, hb, prod_congr rfl fun l hl => by rw [h l (mem_range.mp hl)], prod_const, card_range, C_add]
    ring
  have ev : ∀ k ∈ range (q + 1 + 1), (-1) ^ (q + 1 - k) * (derivative^[q + 1 - k] (dualP τ (q + 1) i)).eval a * g k
      = (if k = 0 then ((q + 1).factorial : ℝ) * g 0 else 0) + if k = 1 then b * q.factorial * g 1 else 0 := by
    intro k hk
    have hk' := mem_range.mp hk
    rw [e, iterate_map_add, iterate_derivative_C_mul, eval_add, eval_mul, eval_C, base_pow, base_pow]
    have sq : ∀ m : Nat, ((-1 : ℝ)) ^ m * (-1) ^ m = 1 := fun m => by rw [← mul_pow]; norm_num
    rcases k with _ | _ | k
    · have := sq (q + 1)
      simp only [Nat.sub_zero, if_true, show ¬ (q + 1 = q) by omega, if_false, mul_zero, add_zero, zero_ne_one]
      linear_combination ((q + 1).factorial : ℝ) * g 0 * this
    · have := sq q
      simp only [zero_add, Nat.add_sub_cancel, show ¬ (q = q + 1) by omega, if_false, if_true, one_ne_zero]
      linear_combination b * (q.factorial : ℝ) * g 1 * this
    · simp only [show ¬ (q + 1 - (k + 1 + 1) = q + 1) by omega, show ¬ (q + 1 - (k + 1 + 1) = q) by omega, if_false, mul_zero, add_zero, zero_mul, show ¬ (k + 1 + 1 = 0) by omega,
        show ¬ (k + 1 + 1 = 1) by omega]
  unfold dbf
  rw [sum_congr rfl ev, sum_add_distrib, sum_ite_eq' (range (q + 1 + 1)) 0 (fun _ => ((q + 1).factorial : ℝ) * g 0), sum_ite_eq' (range (q + 1 + 1)) 1 (fun _ => b * q.factorial * g 1),
    if_pos (mem_range.mpr (by omega)), if_pos (mem_range.mpr (by omega)), Nat.factorial_succ]
  have : (q.factorial : ℝ) ≠ 0 := by exact_mod_cast q.factorial_ne_zero
  have h1 : ((q : ℝ) + 1) ≠ 0 := by positivity
  push_cast
  field_simp

theorem derivative_shift (P : ℝ[X]) (t : ℝ) (k : Nat) : derivative^[k] (P.comp (X + C t)) = (derivative^[k] P).comp (X + C t) := by
  induction k with
  | zero => rfl
  | succ k ih => rw [Function.iterate_succ_apply', ih, Function.iterate_succ_apply', derivative_comp]; simp

/-- Translated knots and base point give the same functional. -/
theorem dbf_translate (τ : Nat → ℝ) (p i i' : Nat) (a a' : ℝ) (g : Nat → ℝ) (h : ∀ l < p, τ (i' + 1 + l) - a' = τ (i + 1 + l) - a) : dbf τ p i' a' g = dbf τ p i a g := by
  have e : dualP τ p i' = (dualP τ p i).comp (X + C (a - a')) := by
    unfold dualP
    rw [Polynomial.prod_comp]
    refine prod_congr rfl fun l hl => ?_
    have := h l (mem_range.mp hl)
    rw [sub_comp, C_comp, X_comp, show τ (i' + 1 + l) = τ (i + 1 + l) - (a - a') by linarith, C_sub]
    ring
  unfold dbf
  congr 1
  refine sum_congr rfl fun k _ => ?_
  rw [e, derivative_shift, eval_comp]
  simp

theorem dbf_lin (τ : Nat → ℝ) (p i : Nat) (a u v : ℝ) (g g' f : Nat → ℝ) (h : ∀ k ≤ p, f k = u * g k + v * g' k) : dbf τ p i a f = u * dbf τ p i a g + v * dbf τ p i a g' := by
  unfold dbf
  rw [mul_div_assoc', mul_div_assoc', ← add_div, mul_sum, mul_sum, ← sum_add_distrib]
  congr 1
  refine sum_congr rfl fun k hk => ?_
  rw [h k (Nat.lt_succ_iff.mp (mem_range.mp hk))]
  ring

/-! ## Taylor's formula -/

/-- From a bound on the derivative to a bound on the function, along a segment. -/
theorem growth {S : Set ℝ} (hS : Convex ℝ S) {f f' : ℝ → ℝ} {x a M : ℝ} {m : Nat} (hx : x ∈ S) (ha : a ∈ S) (hf : ∀ y ∈ S, HasDerivWithinAt f (f' y) S y) (h0 : f x = 0)
    (hb : ∀ y ∈ S, |f' y| ≤ M * |y - x| ^ m / m.factorial) : |f a| ≤ M * |a - x| ^ (m + 1) / (m + 1).factorial := by
  obtain ⟨γ, hγ⟩ : ∃ γ : ℝ → ℝ, γ = fun s => x + s * (a - x) := ⟨_, rfl⟩
  have γS : ∀ s ∈ Set.Icc (0 : ℝ) 1, γ s ∈ S := by
    intro s hs
    rw [hγ]
    have := hS hx ha (sub_nonneg.mpr hs.2) hs.1 (by ring)
    simp only [smul_eq_mul] at this
    convert this using 1
    ring
  have γd : ∀ s, HasDerivAt γ (a - x) s := by
    intro s
    rw [hγ]
    simpa using ((hasDerivAt_id s).mul_const (a - x)).const_add x
  have gd : ∀ s ∈ Set.Icc (0 : ℝ) 1, HasDerivWithinAt (fun s => f (γ s)) (f' (γ s) * (a - x)) (Set.Icc 0 1) s :=
    fun s hs => (hf (γ s) (γS s hs)).comp s (γd s).hasDerivWithinAt γS
  have Bd : ∀ s : ℝ, HasDerivAt (fun s : ℝ => M * |a - x| ^ (m + 1) / (m + 1).factorial * s ^ (m + 1)) (M * |a - x| ^ (m + 1) / m.factorial * s ^ m) s := by
    intro s
    have := (hasDerivAt_pow (m + 1) s).const_mul (M * |a - x| ^ (m + 1) / (m + 1).factorial)
    have e : M * |a - x| ^ (m + 1) / m.factorial * s ^ m = M * |a - x| ^ (m + 1) / (m + 1).factorial * (((m + 1 : Nat) : ℝ) * s ^ (m + 1 - 1)) := by
      rw [Nat.factorial_succ, Nat.add_sub_cancel]
      have : (m.factorial : ℝ) ≠ 0 := by exact_mod_cast m.factorial_ne_zero
      have h1 : ((m : ℝ) + 1) ≠ 0 := by positivity
      push_cast
      field_simp
    rw [e]
    exact this
  have := image_norm_le_of_norm_deriv_right_le_deriv_boundary' (f := fun s => f (γ s)) (a := 0) (b := 1) (fun s hs => (gd s hs).continuousWithinAt)
    (fun s hs => (gd s ⟨hs.1, hs.2.le⟩).mono_of_mem_nhdsWithin (Icc_mem_nhdsGE_of_mem hs)) (B := fun s : ℝ => M * |a - x| ^ (m + 1) / (m + 1).factorial * s ^ (m + 1))
    (by rw [hγ]; simp [h0]) (fun s _ => (Bd s).continuousAt.continuousWithinAt) (fun s _ => (Bd s).hasDerivWithinAt) (fun s hs => ?_) (Set.right_mem_Icc.mpr zero_le_one)
  · simp only [one_pow, mul_one, Real.norm_eq_abs] at this
    rw [hγ] at this
    simpa using this
  · have h2 := hb (γ s) (γS s ⟨hs.1, hs.2.le⟩)
    have e : |γ s - x| = s * |a - x| := by
      rw [hγ]; beta_reduce
      rw [add_sub_cancel_left, abs_mul, abs_of_nonneg hs.1]
    rw [Real.norm_eq_abs, abs_mul]
    rw [e] at h2
    refine (mul_le_mul_of_nonneg_right h2 (abs_nonneg _)).trans (le_of_eq ?_)
    rw [mul_pow, pow_succ]
    ring

/-- The Taylor polynomial at `x`. -/
noncomputable def taylorP (p : Nat) (D : Nat → ℝ → ℝ) (x : ℝ) : ℝ[X] := ∑ j ∈ range (p + 1), C (D j x / j.factorial) * (X - C x) ^ j

theorem taylorP_natDegree (p : Nat) (D : Nat → ℝ → ℝ) (x : ℝ) : (taylorP p D x).natDegree ≤ p := by
  unfold taylorP
  refine natDegree_sum_le_of_forall_le _ _ fun j hj => ?_
  refine (natDegree_C_mul_le _ _).trans ?_
  refine natDegree_pow_le.trans ?_
  rw [natDegree_X_sub_C, mul_one]
  exact Nat.lt_succ_iff.mp (mem_range.mp hj)

theorem taylorP_derivs (p : Nat) (D : Nat → ℝ → ℝ) (x : ℝ) {k : Nat} (hk : k ≤ p) : (derivative^[k] (taylorP p D x)).eval x = D k x := by
  unfold taylorP
  rw [iterate_derivative_sum, eval_finsetSum, sum_eq_single k]
  · rw [iterate_derivative_C_mul, iterate_derivative_X_sub_pow_self, eval_mul, eval_C, eval_natCast]
    have : (k.factorial : ℝ) ≠ 0 := by exact_mod_cast k.factorial_ne_zero
    field_simp
  · intro j _ hj
    rw [iterate_derivative_C_mul, iterate_derivative_X_sub_pow, eval_mul, eval_smul, eval_pow, eval_sub, eval_X, eval_C, eval_C, sub_self]
    rcases Nat.lt_or_ge j k with h | h
    · rw [Nat.descFactorial_eq_zero_iff_lt.mpr h]; simp
    · rw [zero_pow (by omega)]; simp
  · intro hc; exact absurd (mem_range.mpr (by omega)) hc

theorem taylor_bound {S : Set ℝ} (hS : Convex ℝ S) {p : Nat} {D : Nat → ℝ → ℝ} (hD : Jets S p D) {M : ℝ} (hM : ∀ y ∈ S, |D (p + 1) y| ≤ M) {x : ℝ} (hx : x ∈ S) (m : Nat) (hm : m ≤ p + 1)
    (a : ℝ) (ha : a ∈ S) : |D (p + 1 - m) a - (derivative^[p + 1 - m] (taylorP p D x)).eval a| ≤ M * |a - x| ^ m / m.factorial := by
  induction m generalizing a with
  | zero =>
    rw [Nat.sub_zero, iterate_derivative_eq_zero (by have := taylorP_natDegree p D x; omega)]
    simpa using hM a ha
  | succ m ih =>
    refine growth hS hx ha (f := fun a => D (p + 1 - (m + 1)) a - (derivative^[p + 1 - (m + 1)] (taylorP p D x)).eval a)
      (f' := fun a => D (p + 1 - m) a - (derivative^[p + 1 - m] (taylorP p D x)).eval a) (fun y hy => ?_) ?_ (fun y hy => ih (by omega) y hy)
    · have e : p + 1 - m = p + 1 - (m + 1) + 1 := by omega
      have h1 := hD (p + 1 - (m + 1)) (by omega) y hy
      have h2 := (Polynomial.hasDerivAt (derivative^[p + 1 - (m + 1)] (taylorP p D x)) y).hasDerivWithinAt (s := S)
      rw [← Function.iterate_succ_apply' derivative] at h2
      rw [e]
      exact h1.sub h2
    · beta_reduce
      rw [taylorP_derivs p D x (by omega), sub_self]

/-! ## The error -/

theorem dbf_sub (τ : Nat → ℝ) (p i : Nat) (a : ℝ) (g g' : Nat → ℝ) : dbf τ p i a g - dbf τ p i a g' = dbf τ p i a fun k => g k - g' k := by
  unfold dbf
  rw [← sub_div, ← sum_sub_distrib]
  congr 1
  exact sum_congr rfl fun k _ => by ring

/-- The coefficient is close to that of the Taylor polynomial. -/
theorem dbf_close {S : Set ℝ} (hS : Convex ℝ S) {p : Nat} {D : Nat → ℝ → ℝ} (hD : Jets S p D) {M : ℝ} (hM : ∀ y ∈ S, |D (p + 1) y| ≤ M) {x a : ℝ} (hx : x ∈ S) (ha : a ∈ S) {H : ℝ}
    (τ : Nat → ℝ) (i : Nat) (hτ : ∀ l < p, |τ (i + 1 + l) - a| ≤ H) (hxa : |a - x| ≤ H) :
    |dbf τ p i a (fun k => D k a) - dbf τ p i x (fun k => D k x)| ≤ M * (2 * H) ^ (p + 1) / (p + 1).factorial := by
  have hH : 0 ≤ H := (abs_nonneg _).trans hxa
  have hM0 : 0 ≤ M := (abs_nonneg _).trans (hM x hx)
  have e : dbf τ p i x (fun k => D k x) = dbf τ p i a fun k => (derivative^[k] (taylorP p D x)).eval a := by
    rw [dbf_base τ p i _ (taylorP_natDegree p D x) a x]
    unfold dbf
    congr 1
    exact sum_congr rfl fun k hk => by beta_reduce; rw [taylorP_derivs p D x (Nat.lt_succ_iff.mp (mem_range.mp hk))]
  rw [e, dbf_sub]
  unfold dbf
  have pf : (0 : ℝ) < p.factorial := by exact_mod_cast p.factorial_pos
  rw [abs_div, abs_of_pos pf, div_le_iff₀ pf]
  refine (abs_sum_le_sum_abs _ _).trans ?_
  have t : ∀ k ∈ range (p + 1), |(-1) ^ (p - k) * (derivative^[p - k] (dualP τ p i)).eval a * (D k a - (derivative^[k] (taylorP p D x)).eval a)|
      ≤ M * H ^ (p + 1) / (p + 1).factorial * p.factorial * (p + 1).choose k := by
    intro k hk
    have hk' : k ≤ p := Nat.lt_succ_iff.mp (mem_range.mp hk)
    have b1 := dualP_bound τ p i a H hH hτ (p - k)
    have b2 := taylor_bound hS hD hM hx (p + 1 - k) (by omega) a ha
    rw [show p + 1 - (p + 1 - k) = k by omega] at b2
    rw [show p - (p - k) = k by omega] at b1
    have b3 : M * |a - x| ^ (p + 1 - k) / (p + 1 - k).factorial ≤ M * H ^ (p + 1 - k) / (p + 1 - k).factorial := by gcongr
    rw [abs_mul, abs_mul, abs_pow, abs_neg, abs_one, one_pow, one_mul]
    refine (mul_le_mul b1 (b2.trans b3) (abs_nonneg _) (by positivity)).trans (le_of_eq ?_)
    have f1 : (p.descFactorial (p - k) : ℝ) * k.factorial = p.factorial := by
      have := Nat.factorial_mul_descFactorial (show p - k ≤ p by omega)
      rw [show p - (p - k) = k by omega] at this
      rw [mul_comm]
      exact_mod_cast this
    have f2 : ((p + 1).choose k : ℝ) * k.factorial * (p + 1 - k).factorial = (p + 1).factorial := by
      exact_mod_cast Nat.choose_mul_factorial_mul_factorial (show k ≤ p + 1 by omega)
    have n1 : (k.factorial : ℝ) ≠ 0 := by exact_mod_cast k.factorial_ne_zero
    have n2 : ((p + 1 - k).factorial : ℝ) ≠ 0 := by exact_mod_cast (p + 1 - k).factorial_ne_zero
    have n3 : ((p + 1).factorial : ℝ) ≠ 0 := by exact_mod_cast (p + 1).factorial_ne_zero
    have hp : H ^ (p + 1) = H ^ k * H ^ (p + 1 - k) := by rw [← pow_add]; congr 1; omega
    rw [hp, ← f1, ← f2]
    have n4 : ((p + 1).choose k : ℝ) ≠ 0 := by exact_mod_cast (Nat.choose_pos (show k ≤ p + 1 by omega)).ne'
    rw [← f2] at n3
    field_simp
  refine (sum_le_sum t).trans ?_
  rw [← mul_sum, mul_pow]
  have s : ∑ k ∈ range (p + 1), ((p + 1).choose k : ℝ) ≤ 2 ^ (p + 1) := by
    have := Nat.sum_range_choose (p + 1)
    rw [sum_range_succ] at this
    have h2 : ((∑ k ∈ range (p + 1), (p + 1).choose k : Nat) : ℝ) ≤ ((2 ^ (p + 1) : Nat) : ℝ) := by exact_mod_cast (by omega)
    push_cast at h2
    exact h2
  calc _ ≤ M * H ^ (p + 1) / (p + 1).factorial * p.factorial * 2 ^ (p + 1) := mul_le_mul_of_nonneg_left s (by positivity)
    _ = _ := by ring

/-- The error of the quasi-interpolant at `x`, for weights with Marsden's identity. -/
theorem quasi_error {S : Set ℝ} (hS : Convex ℝ S) {p : Nat} {D : Nat → ℝ → ℝ} (hD : Jets S p D) {M : ℝ} (hM : ∀ y ∈ S, |D (p + 1) y| ≤ M) {x : ℝ} (hx : x ∈ S) {H : ℝ} {τ : Nat → ℝ} {m : Nat}
    {w : Nat → ℝ} (hw : ∀ i < m, 0 ≤ w i) (h1 : ∑ i ∈ range m, w i = 1) (hmar : ∀ y, ∑ i ∈ range m, dualPoly τ p i y * w i = (x - y) ^ p) (a : Nat → ℝ)
    (ha : ∀ i < m, w i ≠ 0 → a i ∈ S ∧ |a i - x| ≤ H ∧ ∀ l < p, |τ (i + 1 + l) - a i| ≤ H) :
    |D 0 x - ∑ i ∈ range m, dbf τ p i (a i) (fun k => D k (a i)) * w i| ≤ M * (2 * H) ^ (p + 1) / (p + 1).factorial := by
  obtain ⟨ε, hε⟩ : ∃ ε, ε = M * (2 * H) ^ (p + 1) / (p + 1).factorial := ⟨_, rfl⟩
  have e := dbf_sum hmar (fun k => D k x)
  beta_reduce at e
  rw [← e, ← sum_sub_distrib, ← hε]
  refine (abs_sum_le_sum_abs _ _).trans ?_
  calc _ ≤ ∑ i ∈ range m, ε * w i := by
        refine sum_le_sum fun i hi => ?_
        rw [← sub_mul, abs_mul, abs_of_nonneg (hw i (mem_range.mp hi))]
        by_cases h : w i = 0
        · rw [h, mul_zero, mul_zero]
        · obtain ⟨a1, a2, a3⟩ := ha i (mem_range.mp hi) h
          rw [abs_sub_comm, hε]
          exact mul_le_mul_of_nonneg_right (dbf_close hS hD hM hx a1 τ i a3 a2) (hw i (mem_range.mp hi))
    _ = ε := by rw [← mul_sum, h1, mul_one]

end Mrx.Spec
