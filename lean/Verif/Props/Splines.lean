import Verif.Proofs.SplineEval

/-!
# Properties C01-C06: values of the spline bases

`SplineBasis.mk? n p ty = .ok s` says that the constructor call `SplineBasis(n, p, ty)` returned `s`;
`s.evaluate x i` is the call `s(x, i)`.  All statements hold in every ordered field, in particular
over the reals.

The bounds `n - p ≤ 99900` (clamped) and `n ≤ 49975` (periodic) keep the knot spacing above the
tolerance of `jnp.isclose`; beyond them the property fails (`C01_fails_for_huge_n`).
-/

set_option linter.unusedSectionVars false

namespace Mrx.Props

open Finset Spec

variable {K : Type*} [Field K] [LinearOrder K] [IsStrictOrderedRing K]

theorem of_mk?_clamped {n p : Nat} (h : p < n) {s : SplineBasis K}
    (hs : SplineBasis.mk? n p "clamped" = .ok s) : s = ⟨n, p, "clamped", clampedList K n p⟩ := by
  rw [mk?_clamped n p (Or.inl h)] at hs; exact (Except.ok.inj hs).symm

theorem of_mk?_periodic {n p : Nat} (h : p < n ∨ p = 1) {s : SplineBasis K}
    (hs : SplineBasis.mk? n p "periodic" = .ok s) : s = ⟨n, p, "periodic", periodicList K n p⟩ := by
  rw [mk?_periodic n p h] at hs; exact (Except.ok.inj hs).symm

/-- Refinement: a clamped basis evaluates to the textbook (Cox-de Boor) B-splines over the uniform
open knot vector on `[0,1)`. -/
theorem C01_clamped_is_cox_de_boor (n p : Nat) (h : p < n) (hfine : n - p ≤ 99900)
    (s : SplineBasis K) (hs : SplineBasis.mk? n p "clamped" = .ok s)
    (x : K) (hx : x ≠ 1) (i : Nat) (hi : i < n) :
    s.evaluate x i = N (clampedKnot K n p) p i x := by
  rw [of_mk?_clamped h hs, eval_clamped n p h hfine x i hi, if_neg (by tauto)]

/-- Case: cubic, 8 splines, spline 2 at 1/3. -/
example := C01_clamped_is_cox_de_boor (K := ℚ) 8 3 (by norm_num) (by norm_num) _ (mk?_clamped 8 3 (Or.inl (by norm_num))) (1 / 3) (by norm_num) 2 (by norm_num)

/-- **C01** Clamped B-splines form a partition of unity on all of `[0,1]`. -/
theorem C01_clamped_partition_of_unity (n p : Nat) (h : p < n) (hfine : n - p ≤ 99900)
    (s : SplineBasis K) (hs : SplineBasis.mk? n p "clamped" = .ok s)
    (x : K) (h0 : 0 ≤ x) (h1 : x ≤ 1) :
    ∑ i ∈ range n, s.evaluate x (i : Int) = 1 := by
  rw [of_mk?_clamped h hs]
  have hm := monotone_clampedKnot (K := K) n p h
  rw [sum_congr rfl fun i hi => eval_clamped n p h hfine x i (mem_range.mp hi)]
  rcases h1.lt_or_eq with h1 | rfl
  · rw [sum_congr rfl fun i _ => if_neg (fun hc => h1.ne hc.2)]
    exact N_sum hm (by rwa [clampedKnot_zero n p p le_rfl]) (by rwa [clampedKnot_one n p n le_rfl h])
  · have : ∀ i ∈ range n, (if i = n - 1 ∧ (1:K) = 1 then 1 else N (clampedKnot K n p) p i 1)
        = if i = n - 1 then 1 else 0 := by
      intro i hi
      rw [N_clamped_at_one n p p i h (mem_range.mp hi)]; simp
    rw [sum_congr rfl this, sum_ite_eq']
    rw [if_pos (mem_range.mpr (by omega))]

/-- Case: cubic, 8 splines, at 1/3. -/
example := C01_clamped_partition_of_unity (K := ℚ) 8 3 (by norm_num) (by norm_num) _ (mk?_clamped 8 3 (Or.inl (by norm_num))) (1 / 3) (by norm_num) (by norm_num)

/-- **C02** Periodic B-splines form a partition of unity on `[0,1]` (`p ≥ 1`). -/
theorem C02_periodic_partition_of_unity (n p : Nat) (hp : 1 ≤ p) (hn : 1 ≤ n) (h : p < n ∨ p = 1)
    (hfine : n ≤ 49975)
    (s : SplineBasis K) (hs : SplineBasis.mk? n p "periodic" = .ok s)
    (x : K) (h0 : 0 ≤ x) (h1 : x ≤ 1) :
    ∑ i ∈ range n, s.evaluate x (i : Int) = 1 := by
  rw [of_mk?_periodic h hs]
  have hpn : p ≤ n := by omega
  have hm := (strictMono_periodicKnot (K := K) n p hn).monotone
  rw [sum_congr rfl fun i hi => eval_periodic n p hpn hn hfine x i (mem_range.mp hi),
    sum_wrap n p hpn fun i => N (periodicKnot K n p) p i x]
  have e1 : periodicKnot K n p (n + p) = 1 := by
    rw [periodicKnot_add n p p hn, periodicKnot_p]; simp
  rcases h1.lt_or_eq with h1 | rfl
  · exact N_sum hm (by rwa [periodicKnot_p]) (by rwa [e1])
  · have hlast : N (periodicKnot K n p) p (n + p) 1 = 0 := by
      apply N_left_zero hm (by rw [e1])
      rw [← e1]
      exact strictMono_periodicKnot n p hn (by omega)
    have := N_sum (K := K) hm (p := p) (m := n + p + 1) (x := 1)
      (by rw [periodicKnot_p]; exact zero_le_one)
      (by rw [← e1]; exact strictMono_periodicKnot n p hn (by omega))
    rwa [sum_range_succ, hlast, add_zero] at this

/-- Case: cubic, 8 splines, at 1/3. -/
example := C02_periodic_partition_of_unity (K := ℚ) 8 3 (by norm_num) (by norm_num) (by norm_num) (by norm_num) _ (mk?_periodic 8 3 (by norm_num)) (1 / 3) (by norm_num) (by norm_num)

/-- **C02**, degree 0: the partition of unity holds on `[0,1)`. -/
theorem C02_periodic_degree_zero (n : Nat) (hn : 1 ≤ n) (hfine : n ≤ 49975)
    (s : SplineBasis K) (hs : SplineBasis.mk? n 0 "periodic" = .ok s)
    (x : K) (h0 : 0 ≤ x) (h1 : x < 1) :
    ∑ i ∈ range n, s.evaluate x (i : Int) = 1 := by
  rw [of_mk?_periodic (Or.inl hn) hs]
  have hm := (strictMono_periodicKnot (K := K) n 0 hn).monotone
  rw [sum_congr rfl fun i hi => eval_periodic n 0 (by omega) hn hfine x i (mem_range.mp hi),
    sum_wrap n 0 (by omega) fun i => N (periodicKnot K n 0) 0 i x]
  have e1 : periodicKnot K n 0 n = 1 := by
    have := periodicKnot_add (K := K) n 0 0 hn
    rwa [Nat.add_zero, periodicKnot_p, zero_add] at this
  exact N_sum hm (by rwa [periodicKnot_p]) (by simpa [e1] using h1)

/-- Case: 8 piecewise constants, at 1/3. -/
example := C02_periodic_degree_zero (K := ℚ) 8 (by norm_num) (by norm_num) _ (mk?_periodic 8 0 (by norm_num)) (1 / 3) (by norm_num) (by norm_num)

/-- **C03** Clamped values lie in `[0,1]`. -/
theorem C03_clamped_bounds (n p : Nat) (h : p < n) (hfine : n - p ≤ 99900)
    (s : SplineBasis K) (hs : SplineBasis.mk? n p "clamped" = .ok s)
    (x : K) (h0 : 0 ≤ x) (h1 : x ≤ 1) (i : Nat) (hi : i < n) :
    0 ≤ s.evaluate x i ∧ s.evaluate x i ≤ 1 := by
  have hnn : ∀ j ∈ range n, 0 ≤ s.evaluate x (j : Int) := by
    intro j hj
    rw [of_mk?_clamped h hs, eval_clamped n p h hfine x j (mem_range.mp hj)]
    split
    · exact zero_le_one
    · exact N_nonneg (monotone_clampedKnot n p h) _ _ _
  refine ⟨hnn i (mem_range.mpr hi), ?_⟩
  rw [← C01_clamped_partition_of_unity n p h hfine s hs x h0 h1]
  exact single_le_sum hnn (mem_range.mpr hi)

/-- Case: cubic, 8 splines, spline 2 at 1/3. -/
example := C03_clamped_bounds (K := ℚ) 8 3 (by norm_num) (by norm_num) _ (mk?_clamped 8 3 (Or.inl (by norm_num))) (1 / 3) (by norm_num) (by norm_num) 2 (by norm_num)

/-- **C03** Periodic values lie in `[0,1]`. -/
theorem C03_periodic_bounds (n p : Nat) (hp : 1 ≤ p) (hn : 1 ≤ n) (h : p < n ∨ p = 1)
    (hfine : n ≤ 49975)
    (s : SplineBasis K) (hs : SplineBasis.mk? n p "periodic" = .ok s)
    (x : K) (h0 : 0 ≤ x) (h1 : x ≤ 1) (i : Nat) (hi : i < n) :
    0 ≤ s.evaluate x i ∧ s.evaluate x i ≤ 1 := by
  have hm := (strictMono_periodicKnot (K := K) n p hn).monotone
  have hnn : ∀ j ∈ range n, 0 ≤ s.evaluate x (j : Int) := by
    intro j hj
    rw [of_mk?_periodic h hs, eval_periodic n p (by omega) hn hfine x j (mem_range.mp hj)]
    split
    · exact add_nonneg (N_nonneg hm _ _ _) (N_nonneg hm _ _ _)
    · exact N_nonneg hm _ _ _
  refine ⟨hnn i (mem_range.mpr hi), ?_⟩
  rw [← C02_periodic_partition_of_unity n p hp hn h hfine s hs x h0 h1]
  exact single_le_sum hnn (mem_range.mpr hi)

/-- Case: cubic, 8 splines, spline 2 at 1/3. -/
example := C03_periodic_bounds (K := ℚ) 8 3 (by norm_num) (by norm_num) (by norm_num) (by norm_num) _ (mk?_periodic 8 3 (by norm_num)) (1 / 3) (by norm_num) (by norm_num) 2 (by norm_num)

/-- **C04** A clamped spline vanishes outside its `p+2` knots. -/
theorem C04_clamped_support (n p : Nat) (h : p < n) (hfine : n - p ≤ 99900)
    (s : SplineBasis K) (hs : SplineBasis.mk? n p "clamped" = .ok s)
    (x : K) (i : Nat) (hi : i < n)
    (hx : x < Jax.get s.T i ∨ Jax.get s.T (i + p + 1 : Nat) < x) : s.evaluate x i = 0 := by
  have e := of_mk?_clamped h hs
  subst e
  simp only [get_clampedList n p h] at hx
  have hm := monotone_clampedKnot (K := K) n p h
  rw [eval_clamped n p h hfine x i hi, if_neg]
  · rcases hx with hx | hx
    · exact N_eq_zero_of_lt hm hx
    · exact N_eq_zero_of_ge hm hx.le
  · rintro ⟨rfl, rfl⟩
    rcases hx with hx | hx
    · exact absurd hx (not_lt.mpr (clampedKnot_le_one n p _ h))
    · rw [clampedKnot_one n p _ (by omega) h] at hx; exact lt_irrefl _ hx

/-- Case: spline 0 of 8 cubic ones at 1/2, right of its support `[0, 1/5]`. -/
example := C04_clamped_support (K := ℚ) 8 3 (by norm_num) (by norm_num) _ (mk?_clamped 8 3 (Or.inl (by norm_num))) (1 / 2) 0 (by norm_num)
  (Or.inr (by rw [get_clampedList 8 3 (by norm_num)]; norm_num [clampedKnot]))

/-- **C04** At most `p+1` clamped splines are non-zero at any point. -/
theorem C04_clamped_at_most_p_plus_one (n p : Nat) (h : p < n) (hfine : n - p ≤ 99900)
    (s : SplineBasis K) (hs : SplineBasis.mk? n p "clamped" = .ok s) (x : K) :
    ((range n).filter fun i : Nat => s.evaluate x (i : Int) ≠ 0).card ≤ p + 1 := by
  have e := of_mk?_clamped h hs
  subst e
  have hm := monotone_clampedKnot (K := K) n p h
  by_cases hx : x = 1
  · subst hx
    refine le_trans (card_le_card (t := {n - 1}) ?_) (by simp)
    intro i hi
    rw [mem_filter] at hi
    have hi2 := hi.2
    rw [eval_clamped n p h hfine 1 i (mem_range.mp hi.1),
      N_clamped_at_one n p p i h (mem_range.mp hi.1)] at hi2
    rw [mem_singleton]
    by_contra hc
    exact hi2 (if_neg (by tauto))
  · refine le_trans (card_le_card ?_) (N_card hm p x n)
    intro i hi
    rw [mem_filter] at hi ⊢
    refine ⟨hi.1, ?_⟩
    have hi2 := hi.2
    rwa [eval_clamped n p h hfine x i (mem_range.mp hi.1), if_neg (by tauto)] at hi2

/-- Case: cubic, 8 splines, any point. -/
example := C04_clamped_at_most_p_plus_one (K := ℚ) 8 3 (by norm_num) (by norm_num) _ (mk?_clamped 8 3 (Or.inl (by norm_num)))

/-- **C04** At most `p+1` periodic splines are non-zero at any point. -/
theorem C04_periodic_at_most_p_plus_one (n p : Nat) (hn : 1 ≤ n) (h : p < n ∨ p = 1)
    (hfine : n ≤ 49975)
    (s : SplineBasis K) (hs : SplineBasis.mk? n p "periodic" = .ok s) (x : K) :
    ((range n).filter fun i : Nat => s.evaluate x (i : Int) ≠ 0).card ≤ p + 1 := by
  have e := of_mk?_periodic h hs
  subst e
  have hm := (strictMono_periodicKnot (K := K) n p hn).monotone
  have hsub : ((range n).filter fun i : Nat =>
        (SplineBasis.mk n p "periodic" (periodicList K n p)).evaluate x (i : Int) ≠ 0)
      ⊆ ((range (n + p)).filter fun i => N (periodicKnot K n p) p i x ≠ 0).image
          (fun i => if i < n then i else i - n) := by
    intro i hi
    rw [mem_filter] at hi
    obtain ⟨hi1, hi2⟩ := hi
    rw [mem_range] at hi1
    rw [eval_periodic n p (by omega) hn hfine x i hi1] at hi2
    rw [mem_image]
    by_cases ha : N (periodicKnot K n p) p i x = 0
    · split at hi2
      · rename_i hip
        refine ⟨n + i, mem_filter.mpr ⟨mem_range.mpr (by omega), ?_⟩, ?_⟩
        · intro hc; exact hi2 (by rw [ha, hc, add_zero])
        · rw [if_neg (by omega)]; omega
      · exact absurd ha hi2
    · exact ⟨i, mem_filter.mpr ⟨mem_range.mpr (by omega), ha⟩, if_pos hi1⟩
  exact (card_le_card hsub).trans (card_image_le.trans (N_card hm p x (n + p)))

/-- Case: cubic, 8 splines, any point. -/
example := C04_periodic_at_most_p_plus_one (K := ℚ) 8 3 (by norm_num) (by norm_num) (by norm_num) _ (mk?_periodic 8 3 (by norm_num))

/-- **C05** Clamped splines interpolate at both end points. -/
theorem C05_clamped_endpoints (n p : Nat) (h : p < n) (hfine : n - p ≤ 99900)
    (s : SplineBasis K) (hs : SplineBasis.mk? n p "clamped" = .ok s) (i : Nat) (hi : i < n) :
    s.evaluate 0 i = (if i = 0 then 1 else 0) ∧ s.evaluate 1 i = (if i = n - 1 then 1 else 0) := by
  have hm := monotone_clampedKnot (K := K) n p h
  have hsum := C01_clamped_partition_of_unity n p h hfine s hs 0 le_rfl zero_le_one
  have e := of_mk?_clamped h hs
  subst e
  have hz : ∀ j, j < n → j ≠ 0 →
      (SplineBasis.mk n p "clamped" (clampedList K n p)).evaluate 0 (j : Int) = 0 := by
    intro j hj hj0
    rw [eval_clamped n p h hfine 0 j hj, if_neg (by simp)]
    apply N_left_zero hm
    · rw [← clampedKnot_zero (K := K) n p 0 (by omega)]; exact hm (by omega)
    · exact clampedKnot_pos n p _ (by omega) h
  constructor
  · split
    · rename_i h0; subst h0
      rw [sum_eq_single 0 (fun j hj hne => hz j (mem_range.mp hj) hne)
        (fun hc => absurd (mem_range.mpr hi) hc)] at hsum
      exact hsum
    · exact hz i hi ‹_›
  · rw [eval_clamped n p h hfine 1 i hi, N_clamped_at_one n p p i h hi]; simp

/-- Case: cubic, 8 splines, the last one. -/
example := C05_clamped_endpoints (K := ℚ) 8 3 (by norm_num) (by norm_num) _ (mk?_clamped 8 3 (Or.inl (by norm_num))) 7 (by norm_num)

/-- **C06** Periodic splines take equal values at `0` and `1`. -/
theorem C06_periodic_seam (n p : Nat) (hp : 1 ≤ p) (hn : 1 ≤ n) (h : p < n ∨ p = 1)
    (hfine : n ≤ 49975)
    (s : SplineBasis K) (hs : SplineBasis.mk? n p "periodic" = .ok s) (i : Nat) (hi : i < n) :
    s.evaluate 0 i = s.evaluate 1 i := by
  have hsm := strictMono_periodicKnot (K := K) n p hn
  have hm := hsm.monotone
  have hpn : p ≤ n := by omega
  have e := of_mk?_periodic h hs
  subst e
  have hshift : ∀ j, N (periodicKnot K n p) p (n + j) 1 = N (periodicKnot K n p) p j 0 := by
    intro j
    have gen : ∀ q j (y : K), N (periodicKnot K n p) q (n + j) (y + 1) = N (periodicKnot K n p) q j y := by
      intro q
      induction q with
      | zero =>
        intro j y
        simp only [N, Nat.add_assoc, periodicKnot_add n p _ hn]
        simp
      | succ q ih =>
        intro j y
        simp only [N, Nat.add_assoc, periodicKnot_add n p _ hn]
        have := ih (j+1) y
        rw [ih j y, this]
        congr 2 <;> congr 1 <;> ring
    have := gen p j 0
    rwa [zero_add] at this
  have hend : N (periodicKnot K n p) p i 1 = 0 :=
    N_eq_zero_of_ge hm (periodicKnot_le_one n p _ (by omega) hn)
  have hstart : ∀ j, p ≤ j → N (periodicKnot K n p) p j 0 = 0 := fun j hj =>
    N_left_zero hm (periodicKnot_nonneg n p j hj) (periodicKnot_pos n p _ (by omega) hn)
  rw [eval_periodic n p hpn hn hfine 0 i hi, eval_periodic n p hpn hn hfine 1 i hi]
  split
  · rw [hend, hshift, hstart (n + i) (by omega)]; ring
  · rw [hend, hstart i (by omega)]

/-- Case: cubic, 8 splines, the first one. -/
example := C06_periodic_seam (K := ℚ) 8 3 (by norm_num) (by norm_num) (by norm_num) (by norm_num) _ (mk?_periodic 8 3 (by norm_num)) 0 (by norm_num)

end Mrx.Props
