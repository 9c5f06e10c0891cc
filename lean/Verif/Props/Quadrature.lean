import Verif.Proofs.Quadrature
import Verif.Props.Splines
import Mathlib.Topology.Algebra.Polynomial

/-!
# Properties C11-C15: quadrature

`compositeQuad`, `trapezoidalQuad`, `selectQuadrature`, `Rule` model `mrx/quadrature.py`;
`applyRule (xs, ws) f` is `∑ w_j f(x_j)`.
-/

set_option linter.unusedSectionVars false

namespace Mrx.Props

open Finset Mrx.Spec Mrx.Quad

section Generic
variable {K : Type*} [Field K] [LinearOrder K] [IsStrictOrderedRing K]

theorem compositeQuad_eq (T : List K) (k : Nat) :
    compositeQuad T k = ((T.zip T.tail).flatMap fun e => (rescale (nodesAndWeights k) e.1 e.2).1,
      (T.zip T.tail).flatMap fun e => (rescale (nodesAndWeights k) e.1 e.2).2) := by
  simp only [compositeQuad, els_eq]

/-- **C11** `k` points and `k` weights per element. -/
theorem C11_composite_counts (T : List K) (k : Nat) (h1 : 1 ≤ k) (h2 : k ≤ 10) :
    (compositeQuad T k).1.length = (T.length - 1) * k ∧
    (compositeQuad T k).2.length = (T.length - 1) * k := by
  rw [compositeQuad_eq]
  constructor
  · rw [length_flatMap_block _ _ k fun e _ => (length_rescale h1 h2 e.1 e.2).1]; simp
  · rw [length_flatMap_block _ _ k fun e _ => (length_rescale h1 h2 e.1 e.2).2]; simp

/-- Case: 3 Gauss points on each of two elements. -/
example : (compositeQuad ([0, 1 / 3, 1] : List ℚ) 3).1.length = 6 := (C11_composite_counts ([0, 1 / 3, 1] : List ℚ) 3 (by norm_num) (by norm_num)).1

/-- **C11** For increasing breakpoints, points number `e*k .. e*k+k-1` lie strictly inside element `e`
and have positive weights. -/
theorem C11_composite_points_inside (T : List K) (hT : T.Pairwise (· < ·)) (k : Nat) (h1 : 1 ≤ k)
    (h2 : k ≤ 10) (e q : Nat) (he : e + 1 < T.length) (hq : q < k) :
    ∃ x w, (compositeQuad T k).1[e * k + q]? = some x ∧ (compositeQuad T k).2[e * k + q]? = some w ∧
      T[e] < x ∧ x < T[e+1] ∧ 0 < w := by
  have hlt : T[e] < T[e+1] := List.pairwise_iff_getElem.mp hT e (e+1) (by omega) he (by omega)
  obtain ⟨l1, l2, hin, hw, _⟩ := table_nodes k (List.mem_range.mpr (by omega)) h1
  have hz : e < (T.zip T.tail).length := by simp; omega
  rw [compositeQuad_eq]
  rw [getElem?_flatMap_block _ _ k (fun e _ => (length_rescale h1 h2 e.1 e.2).1) e q hz hq,
    getElem?_flatMap_block _ _ k (fun e _ => (length_rescale h1 h2 e.1 e.2).2) e q hz hq]
  have e1 : (T.zip T.tail)[e] = (T[e], T[e+1]) := by simp
  rw [e1]
  set ξ := (nodesAndWeights k).1[q]'(by omega) with hξ
  set ω := (nodesAndWeights k).2[q]'(by omega) with hω
  have hξ' := hin ξ (List.getElem_mem _)
  have hω' := hw ω (List.getElem_mem _)
  have c1 : (-1 : K) < (ξ : K) := by exact_mod_cast hξ'.1
  have c2 : (ξ : K) < 1 := by exact_mod_cast hξ'.2
  have c3 : (0 : K) < (ω : K) := by exact_mod_cast hω'
  refine ⟨((ξ : K) + 1) / 2 * (T[e+1] - T[e]) + T[e], (ω : K) * (T[e+1] - T[e]) / 2, ?_, ?_, ?_, ?_, ?_⟩
  · simp only [rescale]
    rw [List.getElem?_map, List.getElem?_eq_getElem (by omega)]; rfl
  · simp only [rescale]
    rw [List.getElem?_map, List.getElem?_eq_getElem (by omega)]; rfl
  · have : 0 < ((ξ : K) + 1) / 2 * (T[e+1] - T[e]) := by
      apply mul_pos <;> linarith
    linarith
  · have : ((ξ : K) + 1) / 2 * (T[e+1] - T[e]) < 1 * (T[e+1] - T[e]) := by
      apply mul_lt_mul_of_pos_right <;> linarith
    linarith
  · apply div_pos (mul_pos c3 (by linarith)) (by norm_num)

/-- Case: the last point of the second element. -/
example := C11_composite_points_inside ([0, 1 / 3, 1] : List ℚ) (by norm_num) 3 (by norm_num) (by norm_num) 1 2 (by norm_num) (by norm_num)

theorem els_sum_sub (T : List K) (a b : K) (ha : T.head? = some a) (hb : T.getLast? = some b) :
    ((T.zip T.tail).map fun e => e.2 - e.1).sum = b - a := by
  induction T generalizing a with
  | nil => simp at ha
  | cons c t ih =>
    obtain rfl : c = a := by simpa using ha
    cases t with
    | nil =>
      obtain rfl : c = b := by simpa using hb
      simp
    | cons d r =>
      rw [zip_tail_cons, List.map_cons, List.sum_cons,
        ih d rfl (by rw [List.getLast?_cons_cons] at hb; exact hb)]
      ring

/-- **C11** The weights add up to the length of the interval (relative error at most `1.5e-16`, due to
the decimal tables). -/
theorem C11_total_weight (T : List K) (k : Nat) (h1 : 1 ≤ k) (h2 : k ≤ 10)
    (a b : K) (hab : a ≤ b) (ha : T.head? = some a) (hb : T.getLast? = some b) :
    |(compositeQuad T k).2.sum - (b - a)| ≤ 3 / 10 ^ 16 * ((b - a) / 2) := by
  have hm := table_moments k (List.mem_range.mpr (by omega)) h1 0 (List.mem_range.mpr (by omega))
  obtain ⟨l1, l2, _⟩ := table_nodes k (List.mem_range.mpr (by omega)) h1
  simp only [pow_zero, mul_one, moment, Nat.zero_mod, if_true] at hm
  have hzip : (((nodesAndWeights k).1.zip (nodesAndWeights k).2).map fun t => t.2)
      = (nodesAndWeights k).2 := by
    have := List.map_snd_zip (l₁ := (nodesAndWeights k).1) (l₂ := (nodesAndWeights k).2) (by omega)
    exact this
  rw [hzip] at hm
  have hm' : |(((nodesAndWeights k).2.sum : Rat) : K) - 2| ≤ 3 / 10 ^ 16 := by
    have h3 : ((|(nodesAndWeights k).2.sum - 2 / ((0 : Nat) + 1)| : Rat) : K) ≤ ((3 / 10 ^ 16 : Rat) : K) := by
      exact_mod_cast hm
    push_cast at h3
    simpa using h3
  have hsum : (compositeQuad T k).2.sum = (((nodesAndWeights k).2.sum : Rat) : K) / 2 * (b - a) := by
    rw [compositeQuad_eq, ← els_sum_sub T a b ha hb]
    simp only [rescale]
    have hr : ∀ (l : List Rat) (c : K), (l.map fun (w : Rat) => (w : K) * c / 2).sum = ((l.sum : Rat) : K) / 2 * c := by
      intro l c
      induction l with
      | nil => simp
      | cons x t ih => rw [List.map_cons, List.sum_cons, ih, List.sum_cons]; push_cast; ring
    generalize T.zip T.tail = els
    induction els with
    | nil => simp
    | cons e t ih =>
      rw [List.flatMap_cons, List.sum_append, ih, hr, List.map_cons, List.sum_cons]; ring
  rw [hsum, show (((nodesAndWeights k).2.sum : Rat) : K) / 2 * (b - a) - (b - a)
      = ((((nodesAndWeights k).2.sum : Rat) : K) - 2) * ((b - a) / 2) by ring, abs_mul,
    abs_of_nonneg (by linarith : 0 ≤ (b - a) / 2)]
  gcongr

/-- Case: two elements. -/
example := C11_total_weight ([0, 1 / 3, 1] : List ℚ) 3 (by norm_num) (by norm_num) 0 1 (by norm_num) rfl rfl

/-- The breakpoints handed to `composite_quad` for a clamped basis. -/
theorem slice_clamped (n p : Nat) (hp : 1 ≤ p) (h : p < n) :
    Jax.slice (clampedList K n p) (p : Int) (-(p : Int)) = Jax.linspace01 K (n - p + 1) := by
  have hl := length_clampedList (K := K) n p (by omega)
  have hw : (if -(p : Int) < 0 then -(p : Int) + ((clampedList K n p).length : Int) else -(p : Int)).toNat
      = n + 1 := by rw [if_pos (by omega), hl]; omega
  simp only [Jax.slice]
  rw [hw, hl, if_neg (by omega), Int.toNat_natCast, Nat.min_eq_left (by omega),
    Nat.min_eq_left (by omega)]
  unfold clampedList
  rw [List.take_append_of_le_length (by simp [length_linspace01]; omega), List.take_of_length_le
    (by simp [length_linspace01]; omega), List.drop_left' (by simp), show n + 1 - p = n - p + 1 by omega]

theorem slice_periodic (n p : Nat) (hp : 1 ≤ p) (h : p ≤ n) :
    Jax.slice (periodicList K n p) (p : Int) (-(p : Int)) = Jax.linspace01 K (n + 1) := by
  have hl := length_periodicList (K := K) n p h
  have hw : (if -(p : Int) < 0 then -(p : Int) + ((periodicList K n p).length : Int) else -(p : Int)).toNat
      = n + p + 1 := by rw [if_pos (by omega), hl]; omega
  simp only [Jax.slice]
  rw [hw, hl, if_neg (by omega), Int.toNat_natCast, Nat.min_eq_left (by omega),
    Nat.min_eq_left (by omega)]
  unfold periodicList
  have h0 : (List.map (fun x => x - 1) (Jax.slice (Jax.linspace01 K (n+1)) (-((p : Int) + 1)) (-1))).length = p := by
    rw [slice_left n p h]; simp [length_linspace01]; omega
  rw [List.take_append_of_le_length (by rw [List.length_append, h0, length_linspace01]; omega),
    List.take_of_length_le (by rw [List.length_append, h0, length_linspace01]; omega), List.drop_left' h0]

theorem linspace01_pairwise (m : Nat) : (Jax.linspace01 K m).Pairwise (· < ·) := by
  rw [List.pairwise_iff_getElem]
  intro i j hi hj hij
  rw [length_linspace01] at hi hj
  rw [getElem_linspace01, getElem_linspace01]
  have : (0 : K) < ((m - 1 : Nat) : K) := by exact_mod_cast (by omega : 0 < m - 1)
  gcongr

theorem linspace01_ends (m : Nat) (hm : 1 ≤ m) :
    (Jax.linspace01 K (m+1)).head? = some 0 ∧ (Jax.linspace01 K (m+1)).getLast? = some 1 := by
  have hm' : ((m : Nat) : K) ≠ 0 := by exact_mod_cast (by omega : m ≠ 0)
  constructor
  · rw [List.head?_eq_getElem?, List.getElem?_eq_getElem (by rw [length_linspace01]; omega),
      getElem_linspace01]; simp
  · rw [List.getLast?_eq_getElem?, List.getElem?_eq_getElem (by rw [length_linspace01]; omega),
      getElem_linspace01]
    simp [length_linspace01, hm']

/-- **C11** What `select_quadrature` returns for a clamped or periodic basis of degree `p ≥ 1`: the
composite rule over the `m` uniform elements of `[0,1]` (`m = n - p` resp. `m = n`); all points
are strictly inside `(0,1)` and all weights are positive. -/
theorem C11_select_rule (n p : Nat) (hp : 1 ≤ p) (ty : String) (m : Nat)
    (hty : ty = "clamped" ∧ p < n ∧ m = n - p ∨ ty = "periodic" ∧ 1 ≤ n ∧ (p < n ∨ p = 1) ∧ m = n)
    (s : SplineBasis K) (hs : SplineBasis.mk? n p ty = .ok s) (k : Nat) (h1 : 1 ≤ k) (h2 : k ≤ 10) :
    ∃ xs ws, selectQuadrature s k = .ok (xs, ws) ∧
      (xs, ws) = compositeQuad (Jax.linspace01 K (m + 1)) k ∧
      xs.length = m * k ∧ ws.length = m * k ∧
      (∀ x ∈ xs, 0 < x ∧ x < 1) ∧ (∀ w ∈ ws, 0 < w) ∧ |ws.sum - 1| ≤ 3 / 10 ^ 16 * (1 / 2) := by
  have hm : 1 ≤ m := by omega
  have hsel : selectQuadrature s k = .ok (compositeQuad (Jax.linspace01 K (m + 1)) k) := by
    rcases hty with ⟨rfl, hpn, rfl⟩ | ⟨rfl, hn, hpn, rfl⟩
    · rw [of_mk?_clamped hpn hs]
      simp only [selectQuadrature, if_true, slice_clamped n p hp hpn]
    · rw [of_mk?_periodic hpn hs]
      simp only [selectQuadrature, show ¬ ("periodic" = "clamped") by decide, if_false, if_true]
      rw [slice_periodic _ p hp (by omega)]
  obtain ⟨hhead, hlast⟩ := linspace01_ends (K := K) m hm
  have hcount := C11_composite_counts (Jax.linspace01 K (m+1)) k h1 h2
  rw [length_linspace01, Nat.add_sub_cancel] at hcount
  have hpw := linspace01_pairwise (K := K) (m+1)
  have hm' : (0 : K) < (m : K) := by exact_mod_cast (by omega : 0 < m)
  refine ⟨(compositeQuad (Jax.linspace01 K (m + 1)) k).1, (compositeQuad (Jax.linspace01 K (m + 1)) k).2,
    hsel, rfl, hcount.1, hcount.2, ?_, ?_, ?_⟩
  · intro x hx
    obtain ⟨j, hj, rfl⟩ := List.mem_iff_getElem.mp hx
    rw [hcount.1] at hj
    have hjk : j / k < m := Nat.div_lt_of_lt_mul (by rwa [Nat.mul_comm])
    obtain ⟨x, w, hx1, _, hlo, hhi, _⟩ := C11_composite_points_inside _ hpw k h1 h2 (j / k) (j % k)
      (by rw [length_linspace01]; omega) (Nat.mod_lt _ (by omega))
    rw [Nat.div_add_mod' j k, List.getElem?_eq_getElem (by omega)] at hx1
    obtain rfl := Option.some.inj hx1
    rw [getElem_linspace01] at hlo hhi
    rw [Nat.add_sub_cancel] at hlo hhi
    constructor
    · exact lt_of_le_of_lt (by positivity) hlo
    · refine lt_of_lt_of_le hhi ?_
      rw [div_le_one hm']
      exact_mod_cast hjk
  · intro w hw
    obtain ⟨j, hj, rfl⟩ := List.mem_iff_getElem.mp hw
    rw [hcount.2] at hj
    have hjk : j / k < m := Nat.div_lt_of_lt_mul (by rwa [Nat.mul_comm])
    obtain ⟨x, w, _, hx1, _, _, hpos⟩ := C11_composite_points_inside _ hpw k h1 h2 (j / k) (j % k)
      (by rw [length_linspace01]; omega) (Nat.mod_lt _ (by omega))
    rw [Nat.div_add_mod' j k, List.getElem?_eq_getElem (by omega)] at hx1
    obtain rfl := Option.some.inj hx1
    exact hpos
  · have := C11_total_weight (Jax.linspace01 K (m+1)) k h1 h2 0 1 zero_le_one hhead hlast
    simpa using this

/-- Case: 3 points for 8 cubic periodic splines. -/
example := C11_select_rule (K := ℚ) 8 3 (by norm_num) "periodic" 8 (by norm_num) _ (mk?_periodic 8 3 (by norm_num)) 3 (by norm_num) (by norm_num)

end Generic

/-- **C12** Composite rule with `k` points per element: every polynomial of degree at most `2k-1` is
integrated with an error below `3e-16` times its coefficient size on each element (rounded tables). -/
theorem C12_composite_exact (T : List ℝ) (hT : T.Pairwise (· < ·)) (a b : ℝ)
    (ha : T.head? = some a) (hb : T.getLast? = some b) (k : Nat) (h1 : 1 ≤ k) (h2 : k ≤ 10)
    (f : Polynomial ℝ) (hf : f.natDegree ≤ 2 * k - 1) :
    |applyRule (compositeQuad T k) (fun x => f.eval x) - ∫ x in a..b, f.eval x|
      ≤ 3 / 10 ^ 16 * ((T.zip T.tail).map fun e => (e.2 - e.1) / 2 * coeffSize f e.1 e.2 (2 * k)).sum := by
  rw [compositeQuad_eq, applyRule_flatMap _ _ _ k (fun e _ => (length_rescale h1 h2 e.1 e.2).1)
    (fun e _ => (length_rescale h1 h2 e.1 e.2).2)]
  induction T generalizing a with
  | nil => simp at ha
  | cons c t ih =>
    obtain rfl : c = a := by simpa using ha
    cases t with
    | nil =>
      obtain rfl : c = b := by simpa using hb
      simp
    | cons d r =>
      rw [zip_tail_cons]
      simp only [List.map_cons, List.sum_cons]
      have hcd : c < d := by
        have := List.rel_of_pairwise_cons hT (List.mem_cons_self (a := d) (l := r)); exact this
      have he := element_exact h1 h2 f (by omega) c d hcd
      have hi := ih hT.of_cons d rfl (by rw [List.getLast?_cons_cons] at hb; exact hb)
      have hsplit : ∫ x in c..b, f.eval x = (∫ x in c..d, f.eval x) + ∫ x in d..b, f.eval x :=
        (intervalIntegral.integral_add_adjacent_intervals
          (f.continuous.intervalIntegrable _ _) (f.continuous.intervalIntegrable _ _)).symm
      rw [hsplit, mul_add]
      have : ∀ u v p q : ℝ, u + v - (p + q) = (u - p) + (v - q) := by intros; ring
      rw [this]
      exact (abs_add_le _ _).trans (add_le_add he hi)

/-- Case: `x ^ 5` with 3 points on two elements. -/
example := C12_composite_exact ([0, 1 / 3, 1] : List ℝ) (by norm_num) 0 1 rfl rfl 3 (by norm_num) (by norm_num) (Polynomial.X ^ 5) (by simp)

/-- **C12** The degree is sharp: no table integrates `x^(2k)`. -/
theorem C12_degree_sharp : ∀ k, 1 ≤ k → k ≤ 10 →
    2 / 10 ^ 6 < |(((nodesAndWeights k).1.zip (nodesAndWeights k).2).map fun t => t.2 * t.1 ^ (2*k)).sum
      - moment (2*k)| := by
  have h : ∀ k ∈ List.range 11, 1 ≤ k →
    2 / 10 ^ 6 < |(((nodesAndWeights k).1.zip (nodesAndWeights k).2).map fun t => t.2 * t.1 ^ (2*k)).sum
      - moment (2*k)| := by decide +kernel
  intro k h1 h2
  exact h k (List.mem_range.mpr (by omega)) h1

section Generic2
variable {K : Type*} [Field K] [LinearOrder K] [IsStrictOrderedRing K]

/-- **C13** Trapezoidal rule: `n` equispaced points in `[0,1]`, positive weights with sum `1`, exact for
every affine function when `n ≥ 2` (both end points are points of the rule). -/
theorem C13_trapezoid (n : Nat) (hn : 1 ≤ n) :
    (trapezoidalQuad K n).1.length = n ∧ (trapezoidalQuad K n).2.length = n ∧
    (∀ x ∈ (trapezoidalQuad K n).1, 0 ≤ x ∧ x ≤ 1) ∧ (∀ w ∈ (trapezoidalQuad K n).2, 0 < w) ∧
    (trapezoidalQuad K n).2.sum = 1 ∧
    (2 ≤ n → ∀ α β : K, applyRule (trapezoidalQuad K n) (fun x => α + β * x) = α + β / 2) := by
  by_cases h1 : n = 1
  · subst h1
    simp [trapezoidalQuad]
  · have hn2 : 2 ≤ n := by omega
    have hm : (0 : K) < ((n - 1 : Nat) : K) := by exact_mod_cast (by omega : 0 < n - 1)
    have hw : ((List.range n).map fun i => if i = 0 ∨ i = n - 1 then (1 / ((n - 1 : Nat) : K)) / 2
        else 1 / ((n - 1 : Nat) : K)).length = n := by simp
    have hgen : ∀ F : Nat → K, ((List.range n).map fun i => (if i = 0 ∨ i = n - 1 then
          (1 / ((n - 1 : Nat) : K)) / 2 else 1 / ((n - 1 : Nat) : K)) * F i).sum
        = 1 / ((n - 1 : Nat) : K) * (∑ i ∈ range n, F i - (F 0 + F (n-1)) / 2) := by
      intro F
      have hs : ((List.range n).map fun i => (if i = 0 ∨ i = n - 1 then
          (1 / ((n - 1 : Nat) : K)) / 2 else 1 / ((n - 1 : Nat) : K)) * F i).sum
          = ∑ i ∈ range n, (if i = 0 ∨ i = n - 1 then
          (1 / ((n - 1 : Nat) : K)) / 2 else 1 / ((n - 1 : Nat) : K)) * F i := rfl
      rw [hs]
      have hterm : ∀ i ∈ range n, (if i = 0 ∨ i = n - 1 then
          (1 / ((n - 1 : Nat) : K)) / 2 else 1 / ((n - 1 : Nat) : K)) * F i
          = 1 / ((n - 1 : Nat) : K) * (F i - ((if i = 0 then F 0 / 2 else 0)
              + (if i = n - 1 then F (n-1) / 2 else 0))) := by
        intro i _
        by_cases ha : i = 0
        · have hb : ¬ (i = n - 1) := by omega
          rw [if_pos (Or.inl ha), if_pos ha, if_neg hb, ha]; ring
        · by_cases hb : i = n - 1
          · rw [if_pos (Or.inr hb), if_neg ha, if_pos hb, ← hb]; ring
          · rw [if_neg (by tauto), if_neg ha, if_neg hb]; ring
      rw [sum_congr rfl hterm, ← mul_sum, sum_sub_distrib, sum_add_distrib, sum_ite_eq', sum_ite_eq',
        if_pos (mem_range.mpr (by omega)), if_pos (mem_range.mpr (by omega))]
      ring
    have hn1 : ((n - 1 : Nat) : K) = (n : K) - 1 := by rw [Nat.cast_sub hn]; simp
    have hrule : ∀ F : K → K, applyRule (trapezoidalQuad K n) F
        = 1 / ((n - 1 : Nat) : K) * (∑ i ∈ range n, F ((i : K) / ((n - 1 : Nat) : K))
          - (F 0 + F 1) / 2) := by
      intro F
      have := hgen fun i => F ((i : K) / ((n - 1 : Nat) : K))
      simp only [Nat.cast_zero, zero_div, div_self hm.ne'] at this
      rw [← this]
      unfold applyRule trapezoidalQuad
      rw [if_neg h1]
      simp only [Jax.linspace01]
      rw [List.zip_map', List.map_map]
      rfl
    have hG : ∑ i ∈ range n, (i : K) = (n : K) * ((n : K) - 1) / 2 := by
      clear hrule hgen hw hn1 hm hn2 h1 hn
      induction n with
      | zero => simp
      | succ n ih => rw [sum_range_succ, ih]; push_cast; ring
    refine ⟨?_, ?_, ?_, ?_, ?_, ?_⟩
    · simp [trapezoidalQuad, h1, length_linspace01]
    · simp [trapezoidalQuad, h1]
    · intro x hx
      simp only [trapezoidalQuad, if_neg h1] at hx
      obtain ⟨j, hj, rfl⟩ := List.mem_iff_getElem.mp hx
      rw [length_linspace01] at hj
      rw [getElem_linspace01]
      refine ⟨by positivity, ?_⟩
      rw [div_le_one hm]; exact_mod_cast (by omega : j ≤ n - 1)
    · intro w hw
      simp only [trapezoidalQuad, if_neg h1, List.mem_map] at hw
      obtain ⟨i, _, rfl⟩ := hw
      split <;> positivity
    · have := hgen fun _ => 1
      simp only [mul_one, sum_const, card_range, nsmul_eq_mul] at this
      simp only [trapezoidalQuad, if_neg h1]
      rw [this, hn1]
      have : (n : K) - 1 ≠ 0 := by rw [← hn1]; exact hm.ne'
      field_simp; ring
    · intro _ α β
      rw [hrule, sum_add_distrib, ← mul_sum, ← sum_div, hG, hn1]
      simp only [sum_const, card_range, nsmul_eq_mul]
      have : (n : K) - 1 ≠ 0 := by rw [← hn1]; exact hm.ne'
      field_simp; ring

/-- Case: 5 points. -/
example := (C13_trapezoid (K := ℚ) 5 (by norm_num)).2.2.2.2.2 (by norm_num) 2 3

/-- **C14** Position of the tensor points: entry `(jy * nx + jx) * nz + jz` of `x` (resp. `w`) is the point
(resp. product weight) of the 1-D indices `jx, jy, jz`; and there are `nx * ny * nz` entries. -/
theorem C14_tensor_rule_order (rx ry rz : List K × List K)
    (hx : rx.1.length = rx.2.length) (hy : ry.1.length = ry.2.length) (hz : rz.1.length = rz.2.length) :
    (Rule.ofRules rx ry rz).x.length = ry.1.length * rx.1.length * rz.1.length ∧
    (Rule.ofRules rx ry rz).w.length = ry.1.length * rx.1.length * rz.1.length ∧
    ∀ jx jy jz, (h1 : jx < rx.1.length) → (h2 : jy < ry.1.length) → (h3 : jz < rz.1.length) →
      (Rule.ofRules rx ry rz).x[(jy * rx.1.length + jx) * rz.1.length + jz]?
        = some (rx.1[jx], ry.1[jy], rz.1[jz]) ∧
      (Rule.ofRules rx ry rz).w[(jy * rx.1.length + jx) * rz.1.length + jz]?
        = some (rx.2[jx] * ry.2[jy] * rz.2[jz]) := by
  have gen : ∀ {α : Type _} (a b c : List K) (F : K → K → K → α),
      (b.flatMap fun y => a.flatMap fun x => c.map fun z => F x y z).length
        = b.length * a.length * c.length ∧
      ∀ jx jy jz, (h1 : jx < a.length) → (h2 : jy < b.length) → (h3 : jz < c.length) →
        (b.flatMap fun y => a.flatMap fun x => c.map fun z => F x y z)[(jy * a.length + jx) * c.length + jz]?
          = some (F a[jx] b[jy] c[jz]) := by
    intro α a b c F
    have hin : ∀ y, (a.flatMap fun x => c.map fun z => F x y z).length = a.length * c.length := by
      intro y; rw [length_flatMap_block _ _ c.length fun x _ => by simp]
    constructor
    · rw [length_flatMap_block _ _ (a.length * c.length) fun y _ => hin y]; ring
    · intro jx jy jz h1 h2 h3
      have hlt : jx * c.length + jz < a.length * c.length := by
        calc jx * c.length + jz < jx * c.length + c.length := by omega
          _ = (jx + 1) * c.length := by ring
          _ ≤ a.length * c.length := Nat.mul_le_mul_right _ h1
      rw [show (jy * a.length + jx) * c.length + jz = jy * (a.length * c.length) + (jx * c.length + jz) by ring,
        getElem?_flatMap_block _ _ (a.length * c.length) (fun y _ => hin y) jy _ h2 hlt,
        getElem?_flatMap_block _ _ c.length (fun x _ => by simp) jx jz h1 h3,
        List.getElem?_map, List.getElem?_eq_getElem h3]
      rfl
  refine ⟨(gen rx.1 ry.1 rz.1 fun x y z => (x, y, z)).1, ?_, ?_⟩
  · have := (gen rx.2 ry.2 rz.2 fun x y z => x * y * z).1
    rw [hx, hy, hz]; exact this
  · intro jx jy jz h1 h2 h3
    refine ⟨(gen rx.1 ry.1 rz.1 fun x y z => (x, y, z)).2 jx jy jz h1 h2 h3, ?_⟩
    have := (gen rx.2 ry.2 rz.2 fun x y z => x * y * z).2 jx jy jz (by omega) (by omega) (by omega)
    rw [hx, hz]; exact this

/-- Case: 2 x 1 x 3 points, the last one. -/
example := (C14_tensor_rule_order (([0, 1], [1 / 2, 1 / 2]) : List ℚ × List ℚ) ([5], [1]) ([7, 8, 9], [1, 1, 1]) rfl rfl rfl).2.2 1 0 2 (by decide) (by decide) (by decide)

/-- **C14** Integrating any function with the tensor rule is the iterated 1-D quadrature (Fubini); products
factorise. -/
theorem C14_tensor_fubini (rx ry rz : List K × List K)
    (hx : rx.1.length = rx.2.length) (hz : rz.1.length = rz.2.length) (F : K → K → K → K) :
    (((Rule.ofRules rx ry rz).x.zip (Rule.ofRules rx ry rz).w).map
        fun t => t.2 * F t.1.1 t.1.2.1 t.1.2.2).sum
      = applyRule ry fun y => applyRule rx fun x => applyRule rz fun z => F x y z := by
  unfold Rule.ofRules applyRule
  simp only
  generalize ry.1 = ya
  generalize ry.2 = yb
  have h3 : ∀ (x y a b : K) (za zb : List K),
      (((za.map fun z => (x, y, z)).zip (zb.map fun z => a * b * z)).map
        fun t => t.2 * F t.1.1 t.1.2.1 t.1.2.2).sum
      = a * (b * ((za.zip zb).map fun t => t.2 * F x y t.1).sum) := by
    intro x y a b za
    induction za with
    | nil => simp
    | cons z za ih =>
      intro zb
      cases zb with
      | nil => simp
      | cons w zb => simp only [List.map_cons, List.zip_cons_cons, List.sum_cons, ih]; ring
  have h2 : ∀ (y b : K) (xa xb : List K), xa.length = xb.length →
      (((xa.flatMap fun x => rz.1.map fun z => (x, y, z)).zip
        (xb.flatMap fun x => rz.2.map fun z => x * b * z)).map
        fun t => t.2 * F t.1.1 t.1.2.1 t.1.2.2).sum
      = b * ((xa.zip xb).map fun t => t.2 * ((rz.1.zip rz.2).map fun u => u.2 * F t.1 y u.1).sum).sum := by
    intro y b xa
    induction xa with
    | nil => simp
    | cons x xa ih =>
      intro xb hl
      cases xb with
      | nil => simp at hl
      | cons w xb =>
        simp only [List.flatMap_cons]
        rw [List.zip_append (by simp [hz]), List.map_append, List.sum_append, h3,
          ih xb (by simpa using hl)]
        simp only [List.zip_cons_cons, List.map_cons, List.sum_cons]; ring
  induction ya generalizing yb with
  | nil => simp
  | cons y ya ih =>
    cases yb with
    | nil => simp
    | cons w yb =>
      simp only [List.flatMap_cons]
      rw [List.zip_append, List.map_append, List.sum_append, h2 y w rx.1 rx.2 hx, ih]
      · simp
      · rw [length_flatMap_block _ _ rz.1.length fun _ _ => by simp,
          length_flatMap_block _ _ rz.2.length fun _ _ => by simp, hx, hz]

/-- Case: 2 x 1 x 3 points. -/
example (F : ℚ → ℚ → ℚ → ℚ) := C14_tensor_fubini (([0, 1], [1 / 2, 1 / 2]) : List ℚ × List ℚ) ([5], [1]) ([7, 8, 9], [1, 1, 1]) rfl rfl F

/-- **C14** ... in particular products of three functions factorise. -/
theorem C14_tensor_product_rule (rx ry rz : List K × List K)
    (hx : rx.1.length = rx.2.length) (hz : rz.1.length = rz.2.length) (f g h : K → K) :
    (((Rule.ofRules rx ry rz).x.zip (Rule.ofRules rx ry rz).w).map
        fun t => t.2 * (f t.1.1 * g t.1.2.1 * h t.1.2.2)).sum
      = applyRule rx f * applyRule ry g * applyRule rz h := by
  rw [C14_tensor_fubini rx ry rz hx hz fun x y z => f x * g y * h z]
  have hmul : ∀ (xw : List K × List K) (c : K) (u : K → K),
      applyRule xw (fun x => c * u x) = c * applyRule xw u := by
    intro xw c u
    unfold applyRule
    induction xw.1.zip xw.2 with
    | nil => simp
    | cons a t ih => simp only [List.map_cons, List.sum_cons, ih]; ring
  have e1 : ∀ x y, applyRule rz (fun z => f x * g y * h z) = f x * g y * applyRule rz h :=
    fun x y => hmul rz _ h
  have e2 : ∀ y, applyRule rx (fun x => f x * g y * applyRule rz h)
      = g y * (applyRule rz h * applyRule rx f) := by
    intro y
    rw [← hmul rx _ f, ← hmul rx _ _]
    congr 1; funext x; ring
  simp only [e1, e2]
  have e3 : (fun y => g y * (applyRule rz h * applyRule rx f))
      = fun y => (applyRule rz h * applyRule rx f) * g y := by funext y; ring
  rw [e3, hmul ry _ g]; ring

/-- Case: 2 x 1 x 3 points. -/
example (f g h : ℚ → ℚ) := C14_tensor_product_rule (([0, 1], [1 / 2, 1 / 2]) : List ℚ × List ℚ) ([5], [1]) ([7, 8, 9], [1, 1, 1]) rfl rfl f g h

/-- **C15** (the supported range) `spectral_quad` rejects every unsupported order. -/
theorem C15_spectral_rejects (p : Nat) :
    (∃ r, spectralQuad K p = .ok r) ↔ 1 ≤ p ∧ p ≤ 10 := by
  unfold spectralQuad
  split <;> simp_all

/-- **C15** negation 1: `composite_quad` with any unsupported number of points silently returns the
10-point rule. -/
theorem C15_unsupported_order_silently_ten (T : List K) (k : Nat) (hk : k = 0 ∨ 10 < k) :
    compositeQuad T k = compositeQuad T 10 := by
  have : nodesAndWeights k = nodesAndWeights 10 := by
    unfold nodesAndWeights
    rw [if_neg (by omega), if_neg (by omega), if_neg (by omega), if_neg (by omega), if_neg (by omega),
      if_neg (by omega), if_neg (by omega), if_neg (by omega), if_neg (by omega)]
    rfl
  unfold compositeQuad
  rw [this]

/-- Case: 12 points requested. -/
example := C15_unsupported_order_silently_ten ([0, 1 / 3, 1] : List ℚ) 12 (Or.inr (by norm_num))

/-- **C15** negation 2: for a degree-0 clamped or periodic basis the slice `T[0:-0]` is empty and the
rule has no points, so every integral is silently `0`. -/
theorem C15_degree_zero_rule_is_empty (s : SplineBasis K) (hty : s.type = "clamped" ∨ s.type = "periodic")
    (hp : s.p = 0) (k : Nat) : selectQuadrature s k = .ok ([], []) := by
  have h : Jax.slice s.T ((s.p : Nat) : Int) (-((s.p : Nat) : Int)) = [] := by
    rw [hp]; simp [Jax.slice]
  unfold selectQuadrature
  rw [h]
  rcases hty with h | h <;> simp [h, compositeQuad, Jax.slice]

end Generic2

/-! ## Non-vacuity -/

example : ∃ s : SplineBasis ℚ, SplineBasis.mk? 5 2 "clamped" = .ok s ∧
    ∃ r, selectQuadrature s 3 = .ok r ∧ r.1.length = 9 ∧ r.2.length = 9 :=
  ⟨_, mk?_clamped 5 2 (by omega), _, rfl, by decide +kernel, by decide +kernel⟩

example : ([0, 1/2, 1] : List ℝ).Pairwise (· < ·) ∧ ([0, 1/2, 1] : List ℝ).head? = some 0 ∧
    ([0, 1/2, 1] : List ℝ).getLast? = some 1 ∧
    (Polynomial.X ^ 5 : Polynomial ℝ).natDegree ≤ 2 * 3 - 1 := by
  refine ⟨?_, rfl, rfl, by simp⟩
  constructor
  · intro x hx; simp at hx; rcases hx with rfl | rfl <;> norm_num
  · constructor
    · intro x hx; simp at hx; subst hx; norm_num
    · simp

end Mrx.Props
