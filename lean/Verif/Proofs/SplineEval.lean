import Verif.Proofs.Knots

/-! # `SplineBasis.evaluate` in terms of textbook B-splines -/

set_option linter.unusedSectionVars false

namespace Mrx

open Spec Finset

variable {K : Type*} [Field K] [LinearOrder K] [IsStrictOrderedRing K]

theorem clampedKnot_zero (n p k : Nat) (h : k ≤ p) : clampedKnot K n p k = 0 := by
  simp [clampedKnot, h]

theorem clampedKnot_one (n p k : Nat) (h : n ≤ k) (h' : p < n) : clampedKnot K n p k = 1 := by
  rw [clampedKnot, if_neg (by omega), if_pos h]

theorem clampedKnot_pos (n p k : Nat) (h : p < k) (h' : p < n) : 0 < clampedKnot K n p k := by
  unfold clampedKnot
  rw [if_neg (by omega)]
  split
  · exact zero_lt_one
  · have a : (0 : K) < ((k - p : Nat) : K) := by exact_mod_cast (by omega : 0 < k - p)
    have b : (0 : K) < ((n - p : Nat) : K) := by exact_mod_cast (by omega : 0 < n - p)
    positivity

theorem clampedKnot_lt_one (n p k : Nat) (h : k < n) (h' : p < n) : clampedKnot K n p k < 1 := by
  unfold clampedKnot
  split
  · exact zero_lt_one
  · rw [if_neg (by omega)]
    have b : (0 : K) < ((n - p : Nat) : K) := by exact_mod_cast (by omega : 0 < n - p)
    rw [div_lt_one b]
    exact_mod_cast (by omega : k - p < n - p)

theorem clampedKnot_le_one (n p k : Nat) (h' : p < n) : clampedKnot K n p k ≤ 1 :=
  (abs_le.mp (clampedKnot_grid n p k h').1).2

theorem get_last_clamped (n p : Nat) (h : p < n) : Jax.get (clampedList K n p) (-1) = 1 := by
  have hl := length_clampedList (K := K) n p (by omega)
  rw [Jax.get_neg_one _ (by intro hc; rw [hc] at hl; simp at hl), get_clampedList n p h,
    clampedKnot_one _ _ _ (by omega) h]

/-- `_evaluate` of a spline basis of any degree `q` over the clamped knots of `(n,p)`. -/
theorem evaluate'_clamped (m q : Nat) (ty : String) (n p : Nat) (h : p < n) (hs : n - p ≤ 99900)
    (x : K) (i : Nat) (hi : i + q + 2 ≤ n + p + 1) :
    (SplineBasis.mk m q ty (clampedList K n p)).evaluate' x (i : Int)
      = N (clampedKnot K n p) q i x := by
  have hfun : (fun k : Nat => Jax.get (clampedList K n p) (k : Int)) = clampedKnot K n p :=
    funext fun k => get_clampedList n p h k
  rw [SplineBasis.evaluate'_eq _ (separated_clamped n p h hs) (by
    simp only [hfun]; exact monotone_clampedKnot n p h) x i
    (by rw [length_clampedList n p (by omega)]; exact hi)]
  simp only [hfun]

theorem eval_clamped (n p : Nat) (h : p < n) (hs : n - p ≤ 99900) (x : K) (i : Nat) (hi : i < n) :
    (SplineBasis.mk n p "clamped" (clampedList K n p)).evaluate x (i : Int)
      = if i = n - 1 ∧ x = 1 then 1 else N (clampedKnot K n p) p i x := by
  unfold SplineBasis.evaluate
  rw [if_neg (show ¬ ("clamped" = "periodic") by decide), if_pos rfl]
  simp only []
  rw [get_last_clamped n p h, evaluate'_clamped n p "clamped" n p h hs x i (by omega)]
  have : ((i : Int) = (n : Int) - 1) ↔ i = n - 1 := by omega
  simp only [this]

/-- At `x = 1` (the last knot) the recursion itself always gives `0`. -/
theorem N_clamped_at_one (n p q i : Nat) (h : p < n) (hi : i < n) :
    N (clampedKnot K n p) q i 1 = 0 := by
  by_contra hc
  have := (N_support (monotone_clampedKnot n p h) hc).2
  exact absurd this (not_lt.mpr (clampedKnot_le_one n p _ h))

theorem evaluate'_periodic (m q : Nat) (ty : String) (n p : Nat) (h : p ≤ n) (hn : 0 < n)
    (hs : n ≤ 49975) (x : K) (i : Nat) (hi : i + q + 2 ≤ n + 2 * p + 1) :
    (SplineBasis.mk m q ty (periodicList K n p)).evaluate' x (i : Int)
      = N (periodicKnot K n p) q i x := by
  rw [SplineBasis.evaluate'_eq _ (separated_periodic n p h hn hs) (monotone_get_periodic n p h hn) x i
    (by rw [length_periodicList n p h]; exact hi)]
  apply N_congr
  intro k hk
  exact get_periodicList n p h hn _ (by simp only at hk; omega)

theorem eval_periodic (n p : Nat) (h : p ≤ n) (hn : 0 < n) (hs : n ≤ 49975) (x : K) (i : Nat)
    (hi : i < n) :
    (SplineBasis.mk n p "periodic" (periodicList K n p)).evaluate x (i : Int)
      = if i < p then N (periodicKnot K n p) p i x + N (periodicKnot K n p) p (n + i) x
        else N (periodicKnot K n p) p i x := by
  unfold SplineBasis.evaluate
  rw [if_pos rfl]
  simp only [Nat.cast_lt]
  rw [evaluate'_periodic n p "periodic" n p h hn hs x i (by omega)]
  split
  · rename_i hip
    have : ((n : Int) + (i : Int)) = ((n + i : Nat) : Int) := by push_cast; rfl
    rw [this, evaluate'_periodic n p "periodic" n p h hn hs x (n + i) (by omega)]
  · rfl

/-- Sum of the wrapped periodic values is the sum of the `n + p` textbook functions. -/
theorem sum_wrap (n p : Nat) (h : p ≤ n) (f : Nat → K) :
    ∑ i ∈ range n, (if i < p then f i + f (n + i) else f i) = ∑ i ∈ range (n + p), f i := by
  have : ∀ i ∈ range n, (if i < p then f i + f (n+i) else f i)
      = f i + (if i < p then f (n+i) else 0) := by
    intro i _; split <;> simp
  rw [sum_congr rfl this, sum_add_distrib, sum_range_add, ← Finset.sum_filter]
  congr 1
  apply sum_congr _ fun _ _ => rfl
  ext i; simp; omega

theorem periodicKnot_p (n p : Nat) : periodicKnot K n p p = 0 := by simp [periodicKnot]

theorem periodicKnot_add (n p k : Nat) (hn : 0 < n) :
    periodicKnot K n p (n + k) = periodicKnot K n p k + 1 := by
  have : (n : K) ≠ 0 := by exact_mod_cast hn.ne'
  unfold periodicKnot; push_cast; field_simp; ring

theorem periodicKnot_nonneg (n p k : Nat) (h : p ≤ k) : 0 ≤ periodicKnot K n p k := by
  have : (p : K) ≤ k := by exact_mod_cast h
  unfold periodicKnot; apply div_nonneg <;> [linarith; positivity]

theorem periodicKnot_pos (n p k : Nat) (h : p < k) (hn : 0 < n) : 0 < periodicKnot K n p k := by
  have : (p : K) < k := by exact_mod_cast h
  have : (0 : K) < n := by exact_mod_cast hn
  unfold periodicKnot; apply div_pos <;> linarith

theorem periodicKnot_le_one (n p k : Nat) (h : k ≤ n + p) (hn : 0 < n) :
    periodicKnot K n p k ≤ 1 := by
  have : (k : K) ≤ n + p := by exact_mod_cast h
  have : (0 : K) < n := by exact_mod_cast hn
  unfold periodicKnot; rw [div_le_one this]; linarith

end Mrx
