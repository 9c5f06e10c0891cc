import Verif.Proofs.SplineRefine
import Mathlib.Data.Int.Cast.Lemmas
import Mathlib.Algebra.Order.Floor.Ring
import Mathlib.Tactic.Push

/-! # The knot vectors built by `_init_knots` -/

set_option linter.unusedSectionVars false

namespace Mrx

open Spec

variable {K : Type*} [Field K] [LinearOrder K] [IsStrictOrderedRing K]

theorem Separated.of_grid {T : List K} (m : Nat) (hm : 0 < m) (B : K) (hB : 0 ≤ B)
    (hlt : 1 / 10 ^ 8 + 1 / 10 ^ 5 * B < 1 / (m : K))
    (h : ∀ a ∈ T, |a| ≤ B ∧ ∃ z : Int, a = (z : K) / (m : K)) : Separated T := by
  intro a ha b hb hne
  obtain ⟨_, z, rfl⟩ := h a ha
  obtain ⟨hbB, w, rfl⟩ := h b hb
  have hm' : (0 : K) < m := by exact_mod_cast hm
  have hzw : z ≠ w := by rintro rfl; exact hne rfl
  have h1 : 1 / (m : K) ≤ |(z : K) / m - w / m| := by
    rw [← sub_div, abs_div, abs_of_pos hm']
    gcongr
    have : (1 : Int) ≤ |z - w| := Int.one_le_abs (sub_ne_zero.mpr hzw)
    exact_mod_cast this
  constructor
  · unfold Jax.isclose
    intro hc
    have : (1:K) / 10 ^ 5 * |(w : K) / m| ≤ 1 / 10 ^ 5 * B := by gcongr
    linarith
  · unfold Jax.isclose
    intro hc
    simp only [sub_zero, abs_zero, mul_zero, add_zero] at hc
    have : (0 : K) ≤ 1 / 10 ^ 5 * B := by positivity
    linarith

/-! ## Clamped -/

theorem initKnots_clamped (n p : Nat) (h : p ≤ n + 1) :
    SplineBasis.initKnots K n p "clamped"
      = .ok (List.replicate p 0 ++ Jax.linspace01 K (n + 1 - p) ++ List.replicate p 1) := by
  simp [SplineBasis.initKnots, Nat.not_lt.mpr h]

theorem initKnots_periodic (n p : Nat) :
    SplineBasis.initKnots K n p "periodic"
      = .ok ((Jax.slice (Jax.linspace01 K (n+1)) (-((p : Int) + 1)) (-1)).map (· - 1)
        ++ Jax.linspace01 K (n+1)
        ++ (Jax.slice (Jax.linspace01 K (n+1)) 1 ((p : Int) + 1)).map (· + 1)) := by
  simp [SplineBasis.initKnots]

/-- The clamped knot vector as a list. -/
def clampedList (K : Type*) [Field K] (n p : Nat) : List K :=
  List.replicate p 0 ++ Jax.linspace01 K (n + 1 - p) ++ List.replicate p 1

/-- The periodic knot vector as a list. -/
def periodicList (K : Type*) [Field K] (n p : Nat) : List K :=
  (Jax.slice (Jax.linspace01 K (n+1)) (-((p : Int) + 1)) (-1)).map (· - 1)
        ++ Jax.linspace01 K (n+1)
        ++ (Jax.slice (Jax.linspace01 K (n+1)) 1 ((p : Int) + 1)).map (· + 1)

theorem mk?_clamped (n p : Nat) (h : p < n ∨ (p = 1 ∧ n = 1)) :
    SplineBasis.mk? (K := K) n p "clamped" = .ok ⟨n, p, "clamped", clampedList K n p⟩ := by
  have h1 : ¬ (n ≤ p ∧ p ≠ 1) := by omega
  simp [SplineBasis.mk?, initKnots_clamped n p (by omega), h1, clampedList]

theorem mk?_periodic (n p : Nat) (h : p < n ∨ p = 1) :
    SplineBasis.mk? (K := K) n p "periodic" = .ok ⟨n, p, "periodic", periodicList K n p⟩ := by
  have h1 : ¬ (n ≤ p ∧ p ≠ 1) := by omega
  simp [SplineBasis.mk?, initKnots_periodic n p, h1, periodicList]

theorem length_linspace01 (m : Nat) : (Jax.linspace01 K m).length = m := by
  simp [Jax.linspace01]

theorem getElem_linspace01 (m j : Nat) (h : j < (Jax.linspace01 K m).length) :
    (Jax.linspace01 K m)[j] = (j : K) / ((m - 1 : Nat) : K) := by
  simp [Jax.linspace01]

theorem length_clampedList (n p : Nat) (h : p ≤ n + 1) : (clampedList K n p).length = n + p + 1 := by
  simp [clampedList, length_linspace01]; omega

theorem get_clampedList (n p : Nat) (h : p < n) (k : Nat) :
    Jax.get (clampedList K n p) (k : Int) = clampedKnot K n p k := by
  have hl := length_clampedList (K := K) n p (by omega)
  have hlt : min k ((clampedList K n p).length - 1) < (clampedList K n p).length := by omega
  rw [Jax.get_natCast, List.getD_eq_getElem?_getD, List.getElem?_eq_getElem hlt]
  have hnp : ((n - p : Nat) : K) ≠ 0 := by
    have : 0 < n - p := by omega
    exact_mod_cast this.ne'
  simp only [Option.getD_some]
  unfold clampedKnot
  have e : ∀ j (hj : j < (clampedList K n p).length), (clampedList K n p)[j] =
      if j ≤ p then 0 else if n ≤ j then 1 else ((j - p : Nat) : K) / ((n - p : Nat) : K) := by
    intro j hj
    simp only [clampedList, List.getElem_append, List.length_append, List.length_replicate,
      length_linspace01, List.getElem_replicate]
    rw [hl] at hj
    split
    · split
      · rw [if_pos (by omega)]
      · simp only [Jax.linspace01, List.getElem_map, List.getElem_range]
        rw [show n + 1 - p - 1 = n - p by omega]
        split
        · rw [show j - p = 0 by omega]; simp
        · split
          · rw [show j - p = n - p by omega]; exact div_self hnp
          · rfl
    · rw [if_neg (by omega), if_pos (by omega)]
  rw [e]
  rw [hl]
  by_cases h1 : k ≤ p
  · rw [if_pos (by omega), if_pos h1]
  · rw [if_neg (by omega), if_neg h1]
    by_cases h2 : n ≤ k
    · rw [if_pos (by omega), if_pos h2]
    · rw [if_neg (by omega), if_neg h2, Nat.min_eq_left (by omega)]

theorem monotone_clampedKnot (n p : Nat) (h : p < n) : Monotone (clampedKnot K n p) := by
  have hnp : (0 : K) < ((n - p : Nat) : K) := by
    have : 0 < n - p := by omega
    exact_mod_cast this
  apply monotone_nat_of_le_succ
  intro k
  unfold clampedKnot
  split_ifs
  all_goals first
    | exact le_refl _
    | exact zero_le_one
    | positivity
    | omega
    | (rw [div_le_one hnp]; exact_mod_cast (by omega : k - p ≤ n - p))
    | (gcongr; omega)

theorem clampedKnot_grid (n p k : Nat) (h : p < n) :
    |clampedKnot K n p k| ≤ 1 ∧ ∃ z : Int, clampedKnot K n p k = (z : K) / ((n - p : Nat) : K) := by
  have hnp : (0 : K) < ((n - p : Nat) : K) := by
    have : 0 < n - p := by omega
    exact_mod_cast this
  unfold clampedKnot
  split_ifs with a b
  · exact ⟨by simp, 0, by simp⟩
  · exact ⟨by simp, (n - p : Nat), by push_cast; exact (div_self hnp.ne').symm⟩
  · refine ⟨?_, (k - p : Nat), by push_cast; rfl⟩
    rw [abs_of_nonneg (by positivity), div_le_one hnp]
    exact_mod_cast (by omega : k - p ≤ n - p)

theorem mem_get_of_mem {T : List K} {a : K} (h : a ∈ T) : ∃ k : Nat, a = Jax.get T (k : Int) := by
  obtain ⟨k, hk, rfl⟩ := List.mem_iff_getElem.mp h
  exact ⟨k, (Jax.get_of_lt _ _ hk).symm⟩

theorem separated_clamped (n p : Nat) (h : p < n) (hs : n - p ≤ 99900) :
    Separated (clampedList K n p) := by
  refine Separated.of_grid (n - p) (by omega) 1 zero_le_one ?_ ?_
  · have h1 : (0 : K) < ((n - p : Nat) : K) := by exact_mod_cast (by omega : 0 < n - p)
    have h2 : ((n - p : Nat) : K) ≤ 99900 := by exact_mod_cast hs
    have h3 : (1 : K) / 99900 ≤ 1 / ((n - p : Nat) : K) := by gcongr
    have h4 : (1 : K) / 10 ^ 8 + 1 / 10 ^ 5 * 1 < 1 / 99900 := by norm_num
    exact h4.trans_le h3
  · intro a ha
    obtain ⟨k, rfl⟩ := mem_get_of_mem ha
    rw [get_clampedList n p h k]
    exact clampedKnot_grid n p k h

/-! ## Periodic -/

theorem slice_left (n p : Nat) (h : p ≤ n) :
    Jax.slice (Jax.linspace01 K (n+1)) (-((p : Int) + 1)) (-1)
      = ((Jax.linspace01 K (n+1)).take n).drop (n - p) := by
  simp only [Jax.slice, length_linspace01]
  rw [if_pos (by omega), if_pos (by omega)]
  congr 1
  · omega
  · congr 1; omega

theorem slice_right (n p : Nat) (h : p ≤ n) :
    Jax.slice (Jax.linspace01 K (n+1)) 1 ((p : Int) + 1)
      = ((Jax.linspace01 K (n+1)).take (p+1)).drop 1 := by
  simp only [Jax.slice, length_linspace01]
  rw [if_neg (by omega), if_neg (by omega)]
  congr 1
  congr 1; omega

theorem length_periodicList (n p : Nat) (h : p ≤ n) :
    (periodicList K n p).length = n + 2 * p + 1 := by
  simp only [periodicList, slice_left n p h, slice_right n p h, List.length_append, List.length_map,
    List.length_drop, List.length_take, length_linspace01]
  omega

theorem getElem_periodicList (n p : Nat) (h : p ≤ n) (hn : 0 < n) (k : Nat)
    (hk : k < (periodicList K n p).length) : (periodicList K n p)[k] = periodicKnot K n p k := by
  have hl := length_periodicList (K := K) n p h
  have hn' : (n : K) ≠ 0 := by exact_mod_cast hn.ne'
  rw [hl] at hk
  simp only [periodicList, slice_left n p h, slice_right n p h, List.getElem_append,
    List.length_append, List.length_map, List.length_drop, List.length_take, length_linspace01,
    List.getElem_map, List.getElem_drop, List.getElem_take, getElem_linspace01,
    Nat.add_sub_cancel, periodicKnot]
  split_ifs with a b
  · rw [show n - p + k = n + k - p by omega, Nat.cast_sub (by omega)]
    field_simp; push_cast; ring
  · rw [show min n (n+1) - (n-p) = p by omega, Nat.cast_sub (by omega)]
  · rw [show 1 + (k - (min n (n + 1) - (n - p) + (n + 1)))
      = k - p - n by omega, Nat.cast_sub (by omega), Nat.cast_sub (by omega)]
    field_simp; ring

theorem get_periodicList (n p : Nat) (h : p ≤ n) (hn : 0 < n) (k : Nat) (hk : k ≤ n + 2 * p) :
    Jax.get (periodicList K n p) (k : Int) = periodicKnot K n p k := by
  have hl := length_periodicList (K := K) n p h
  rw [Jax.get_of_lt _ _ (by omega), getElem_periodicList n p h hn]

theorem strictMono_periodicKnot (n p : Nat) (hn : 0 < n) : StrictMono (periodicKnot K n p) := by
  have hn' : (0 : K) < n := by exact_mod_cast hn
  apply strictMono_nat_of_lt_succ
  intro k
  unfold periodicKnot
  push_cast
  gcongr
  linarith

theorem monotone_get_periodic (n p : Nat) (h : p ≤ n) (hn : 0 < n) :
    Monotone fun k : Nat => Jax.get (periodicList K n p) (k : Int) := by
  have hl := length_periodicList (K := K) n p h
  have : ∀ k : Nat, Jax.get (periodicList K n p) (k : Int) = periodicKnot K n p (min k (n + 2*p)) := by
    intro k
    rw [← get_periodicList n p h hn _ (by omega), Jax.get_natCast, Jax.get_natCast]
    congr 1; omega
  intro a b hab
  simp only [this]
  exact (strictMono_periodicKnot n p hn).monotone (by omega)

theorem separated_periodic (n p : Nat) (h : p ≤ n) (hn : 0 < n) (hs : n ≤ 49975) :
    Separated (periodicList K n p) := by
  have hn' : (0 : K) < n := by exact_mod_cast hn
  have hl := length_periodicList (K := K) n p h
  refine Separated.of_grid n hn 2 (by norm_num) ?_ ?_
  · have h2 : (n : K) ≤ 49975 := by exact_mod_cast hs
    have h3 : (1 : K) / 49975 ≤ 1 / (n : K) := by gcongr
    have h4 : (1 : K) / 10 ^ 8 + 1 / 10 ^ 5 * 2 < 1 / 49975 := by norm_num
    exact h4.trans_le h3
  · intro a ha
    obtain ⟨k, hk, rfl⟩ := List.mem_iff_getElem.mp ha
    rw [getElem_periodicList n p h hn]
    unfold periodicKnot
    refine ⟨?_, (k : Int) - p, by push_cast; rfl⟩
    rw [abs_div, abs_of_pos hn', div_le_iff₀ hn', abs_le]
    have c1 : (p : K) ≤ n := by exact_mod_cast h
    have c2 : (k : K) ≤ n + 2 * p := by exact_mod_cast (by omega : k ≤ n + 2 * p)
    have c3 : (0 : K) ≤ k := by positivity
    constructor <;> linarith

end Mrx
