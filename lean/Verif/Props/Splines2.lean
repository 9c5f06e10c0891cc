import Verif.Props.Splines
import Verif.Proofs.BSplineDeriv
import Verif.Proofs.Index
import Mathlib.Topology.Algebra.Order.Field
import Mathlib.Analysis.SpecialFunctions.Pow.Real

/-! # Properties C07-C10: derivative splines, constructor, tensor bases -/

set_option linter.unusedSectionVars false

namespace Mrx.Props

open Finset Spec Filter Topology

section Generic
variable {K : Type*} [Field K] [LinearOrder K] [IsStrictOrderedRing K]

theorem mk?_deriv_clamped (n p : Nat) (hp : 1 ≤ p) (h : p < n) :
    DerivativeSpline.mk? (K := K) ⟨n, p, "clamped", clampedList K n p⟩
      = .ok ⟨n - 1, p - 1, "clamped", clampedList K n p,
          ⟨n - 1, p - 1, "clamped", clampedList K n p⟩⟩ := by
  have h1 : ¬ (n - 1 ≤ p - 1 ∧ p - 1 ≠ 1) := by omega
  have h2 : p ≠ 0 := by omega
  simp only [DerivativeSpline.mk?, SplineBasis.mk?, if_true, show ¬ ("clamped" = "periodic") by decide,
    show ¬ ("clamped" = "constant") by decide, if_false, if_neg h1]
  simp [h2]

/-- Trimming the periodic knots of degree `p` gives those of degree `p-1`. -/
theorem slice_periodicList (n p : Nat) (hp : 1 ≤ p) (h : p ≤ n) :
    Jax.slice (periodicList K n p) 1 (-1) = periodicList K n (p - 1) := by
  have hn : 0 < n := by omega
  have hl := length_periodicList (K := K) n p h
  have hl' := length_periodicList (K := K) n (p-1) (by omega)
  apply List.ext_getElem
  · simp [Jax.slice, hl, hl']; omega
  · intro k h1 h2
    rw [getElem_periodicList n (p-1) (by omega) hn]
    simp only [Jax.slice, hl] at h1 ⊢
    simp only [List.getElem_drop, List.getElem_take]
    rw [getElem_periodicList n p h hn]
    unfold periodicKnot
    rw [if_neg (by omega), Int.toNat_one, Nat.min_eq_left (by omega), Nat.cast_sub hp]
    push_cast; ring

theorem mk?_deriv_periodic (n p : Nat) (hp : 1 ≤ p) (hn : 1 ≤ n) (h : p < n ∨ p = 1) :
    DerivativeSpline.mk? (K := K) ⟨n, p, "periodic", periodicList K n p⟩
      = .ok ⟨n, p - 1, "periodic", periodicList K n (p-1),
          ⟨n, p - 1, "periodic", periodicList K n (p-1)⟩⟩ := by
  have h1 : ¬ (n ≤ p - 1 ∧ p - 1 ≠ 1) := by omega
  have h2 : p ≠ 0 := by omega
  have := slice_periodicList (K := K) n p hp (by omega)
  simp only [DerivativeSpline.mk?, SplineBasis.mk?, if_true, show ¬ ("periodic" = "clamped") by decide,
    show ¬ ("periodic" = "constant") by decide, if_false, if_neg h1, this]
  simp [h2]

/-- **C08** (partial: away from the right end point `x = 1`) the clamped derivative basis is the
scaled textbook B-spline of one degree less. -/
theorem C08_clamped_derivative_values (n p : Nat) (hp : 1 ≤ p) (h : p < n)
    (hfine : n - p ≤ 99900)
    (s : SplineBasis K) (hs : SplineBasis.mk? n p "clamped" = .ok s)
    (d : DerivativeSpline K) (hd : DerivativeSpline.mk? s = .ok d)
    (x : K) (hx : x ≠ 1) (i : Nat) :
    d.evaluate x i = if i < n - 1 then
        p * N (clampedKnot K n p) (p - 1) (i + 1) x
          / (clampedKnot K n p (i + p + 1) - clampedKnot K n p (i + 1))
      else 0 := by
  rw [of_mk?_clamped h hs, mk?_deriv_clamped n p hp h] at hd
  rw [← Except.ok.inj hd]
  unfold DerivativeSpline.evaluate
  simp only [if_true, Nat.cast_lt]
  split
  · rename_i hi
    have e0 : ((i : Int) + 1) = ((i + 1 : Nat) : Int) := by push_cast; rfl
    have e1 : ((i : Int) + ((p - 1 : Nat) : Int) + 2) = ((i + p + 1 : Nat) : Int) := by omega
    rw [e0, e1, get_clampedList n p h, get_clampedList n p h]
    unfold SplineBasis.evaluate
    rw [if_neg (show ¬ ("clamped" = "periodic") by decide), if_pos rfl, if_neg]
    · rw [evaluate'_clamped (n-1) (p-1) "clamped" n p h hfine x (i+1) (by omega)]
      rw [Nat.cast_sub hp]; push_cast; ring
    · simp only [get_last_clamped n p h]; tauto
  · rfl

/-- Case: cubic, 8 splines, at 1/3, derivative spline 2. -/
example := C08_clamped_derivative_values (K := ℚ) 8 3 (by norm_num) (by norm_num) (by norm_num) _ (mk?_clamped 8 3 (Or.inl (by norm_num))) _
  (mk?_deriv_clamped 8 3 (by norm_num) (by norm_num)) (1 / 3) (by norm_num) 2

/-- Values of the periodic derivative basis. -/
theorem periodic_derivative_values (n p : Nat) (hp : 1 ≤ p) (hn : 1 ≤ n) (h : p < n ∨ p = 1)
    (hfine : n ≤ 49975)
    (s : SplineBasis K) (hs : SplineBasis.mk? n p "periodic" = .ok s)
    (d : DerivativeSpline K) (hd : DerivativeSpline.mk? s = .ok d)
    (x : K) (i : Nat) (hi : i < n) :
    d.evaluate x i = (n : K) * (if i < p - 1 then
        N (periodicKnot K n p) (p - 1) (i+1) x + N (periodicKnot K n p) (p - 1) (n + i + 1) x
      else N (periodicKnot K n p) (p - 1) (i+1) x) := by
  have hsh : ∀ j, N (periodicKnot K n (p-1)) (p-1) j x = N (periodicKnot K n p) (p-1) (j+1) x := by
    intro j
    apply N_congr
    intro k _
    unfold periodicKnot
    rw [Nat.cast_sub hp]; push_cast; ring
  rw [of_mk?_periodic h hs, mk?_deriv_periodic n p hp hn h] at hd
  rw [← Except.ok.inj hd]
  unfold DerivativeSpline.evaluate
  rw [if_neg (show ¬ ("periodic" = "clamped") by decide), if_pos rfl]
  have hmod : ((i : Int) + (n : Int)) % (n : Int) = (i : Int) := by
    rw [Int.add_emod_right]; exact Int.emod_eq_of_lt (by omega) (by omega)
  simp only [hmod]
  have e1 : ((i : Int) + ((p - 1 : Nat) : Int) + 1) = ((i + p : Nat) : Int) := by omega
  rw [e1, get_periodicList n (p-1) (by omega) hn _ (by omega),
    get_periodicList n (p-1) (by omega) hn _ (by omega),
    eval_periodic n (p-1) (by omega) hn hfine x i hi, hsh, hsh]
  have hn' : (n : K) ≠ 0 := by exact_mod_cast (by omega : n ≠ 0)
  have hp' : (p : K) ≠ 0 := by exact_mod_cast (by omega : p ≠ 0)
  have : periodicKnot K n (p - 1) (i + p) - periodicKnot K n (p-1) i = p / n := by
    unfold periodicKnot; rw [Nat.cast_sub hp]; push_cast; field_simp; ring
  rw [this, Nat.cast_sub hp]
  push_cast
  rw [sub_add_cancel]
  generalize (if i < p - 1 then _ else _ : K) = A
  field_simp

end Generic

/-- **C07**, clamped: away from the knots the derivative of spline `i` is
`d(x, i-1) - d(x, i)` (no first term for `i = 0`; the code returns `0` for `d(x, n-1)`). -/
theorem C07_clamped_derivative (n p : Nat) (hp : 1 ≤ p) (h : p < n) (hfine : n - p ≤ 99900)
    (s : SplineBasis ℝ) (hs : SplineBasis.mk? n p "clamped" = .ok s)
    (d : DerivativeSpline ℝ) (hd : DerivativeSpline.mk? s = .ok d)
    (x : ℝ) (hx : x < 1) (hk : x ∉ s.T) (i : Nat) (hi : i < n) :
    HasDerivAt (fun y => s.evaluate y i)
      ((if i = 0 then 0 else d.evaluate x ((i : Int) - 1)) - d.evaluate x i) x := by
  have hm := monotone_clampedKnot (K := ℝ) n p h
  have hval := C08_clamped_derivative_values n p hp h hfine s hs d hd x hx.ne
  have hkn : ∀ k, clampedKnot ℝ n p k ≠ x := by
    intro k hc
    apply hk
    rw [← hc, ← get_clampedList n p h k, of_mk?_clamped h hs]
    apply Jax.get_mem
    intro hc; have := length_clampedList (K := ℝ) n p (by omega); simp only at hc; rw [hc] at this; simp at this
  obtain ⟨q, rfl⟩ : ∃ q, p = q + 1 := ⟨p - 1, by omega⟩
  have hD := N_hasDerivAt hm q i x hkn
  have hev : (fun y => s.evaluate y i) =ᶠ[𝓝 x] fun y => N (clampedKnot ℝ n (q+1)) (q+1) i y := by
    filter_upwards [eventually_lt_nhds hx] with y hy
    rw [of_mk?_clamped h hs, eval_clamped n (q+1) h hfine y i hi, if_neg (fun hc => hy.ne hc.2)]
  refine (hD.congr_of_eventuallyEq hev).congr_deriv ?_
  rw [hval i]
  simp only [Nat.add_sub_cancel]
  have t1 : (if i = 0 then 0 else d.evaluate x ((i : Int) - 1))
      = ((q : ℝ) + 1) * (N (clampedKnot ℝ n (q+1)) q i x
          / (clampedKnot ℝ n (q+1) (i+q+1) - clampedKnot ℝ n (q+1) i)) := by
    split
    · rename_i h0; subst h0
      rw [clampedKnot_zero n (q+1) (0+q+1) (by omega), clampedKnot_zero n (q+1) 0 (by omega)]
      simp
    · have e : ((i : Int) - 1) = ((i - 1 : Nat) : Int) := by omega
      rw [e, hval (i-1), if_pos (by omega)]
      simp only [Nat.add_sub_cancel]
      rw [show i - 1 + 1 = i by omega, show i - 1 + (q+1) + 1 = i + q + 1 by omega]
      push_cast; ring
  have t2 : (if i < n - 1 then ((q + 1 : Nat) : ℝ) * N (clampedKnot ℝ n (q+1)) q (i+1) x /
        (clampedKnot ℝ n (q+1) (i+(q+1)+1) - clampedKnot ℝ n (q+1) (i+1)) else 0)
      = ((q : ℝ) + 1) * (N (clampedKnot ℝ n (q+1)) q (i+1) x
          / (clampedKnot ℝ n (q+1) (i+q+2) - clampedKnot ℝ n (q+1) (i+1))) := by
    rw [show i+(q+1)+1 = i + q + 2 by omega]
    split
    · push_cast; ring
    · rw [clampedKnot_one n (q+1) (i+q+2) (by omega) h, clampedKnot_one n (q+1) (i+1) (by omega) h]
      simp
  rw [t1, t2]; ring

/-- Case: cubic, 8 splines, at 1/3 (the knots are multiples of 1/5), spline 2. -/
example := C07_clamped_derivative 8 3 (by norm_num) (by norm_num) (by norm_num) _ (mk?_clamped 8 3 (Or.inl (by norm_num))) _
  (mk?_deriv_clamped 8 3 (by norm_num) (by norm_num)) (1 / 3) (by norm_num) (by norm_num [clampedList, Jax.linspace01, List.range_succ]) 2 (by norm_num)

/-- **C07**, periodic: away from the knots the derivative of spline `i` is `d(x, i-1) - d(x, i)`,
indices modulo `n` (the code wraps a negative index itself). -/
theorem C07_periodic_derivative (n p : Nat) (hp : 1 ≤ p) (hn : 1 ≤ n) (h : p < n ∨ p = 1)
    (hfine : n ≤ 49975)
    (s : SplineBasis ℝ) (hs : SplineBasis.mk? n p "periodic" = .ok s)
    (d : DerivativeSpline ℝ) (hd : DerivativeSpline.mk? s = .ok d)
    (x : ℝ) (h0 : 0 < x) (h1 : x < 1) (hk : x ∉ s.T) (i : Nat) (hi : i < n) :
    HasDerivAt (fun y => s.evaluate y i) (d.evaluate x ((i : Int) - 1) - d.evaluate x i) x := by
  have hpn : p ≤ n := by omega
  have hsm := strictMono_periodicKnot (K := ℝ) n p hn
  have hm := hsm.monotone
  have hval := periodic_derivative_values n p hp hn h hfine s hs d hd x
  have hneg : d.evaluate x (-1) = d.evaluate x ((n - 1 : Nat) : Int) := by
    rw [of_mk?_periodic h hs, mk?_deriv_periodic n p hp hn h] at hd
    rw [← Except.ok.inj hd]
    unfold DerivativeSpline.evaluate
    have : ((-1 : Int) + (n : Int)) % (n : Int) = (((n - 1 : Nat) : Int) + (n : Int)) % (n : Int) := by
      rw [show (-1 : Int) + (n : Int) = ((n - 1 : Nat) : Int) by omega, Int.add_emod_right]
    simp only [this, show ¬ ("periodic" = "clamped") by decide, if_false, if_true]
  have hkn : ∀ k, periodicKnot ℝ n p k ≠ x := by
    intro k hc
    by_cases hkl : k ≤ n + 2 * p
    · apply hk
      rw [← hc, ← get_periodicList n p hpn hn k hkl, of_mk?_periodic h hs]
      apply Jax.get_mem
      intro hc; have := length_periodicList (K := ℝ) n p hpn; simp only at hc; rw [hc] at this; simp at this
    · have : periodicKnot ℝ n p (n + p) ≤ periodicKnot ℝ n p k := hm (by omega)
      rw [periodicKnot_add n p p hn, periodicKnot_p] at this
      linarith
  have hD := fun j => N_hasDerivAt hm (p-1) j x hkn
  rw [show p - 1 + 1 = p by omega] at hD
  have hgap : ∀ j, periodicKnot ℝ n p (j + (p-1) + 1) - periodicKnot ℝ n p j = p / n := by
    intro j
    have hn' : (n : ℝ) ≠ 0 := by exact_mod_cast (by omega : n ≠ 0)
    rw [show j + (p-1) + 1 = j + p by omega]
    unfold periodicKnot; push_cast; field_simp; ring
  have hgap' : ∀ j, periodicKnot ℝ n p (j + (p-1) + 2) - periodicKnot ℝ n p (j+1) = p / n := by
    intro j
    have := hgap (j+1)
    rwa [show j + 1 + (p-1) + 1 = j + (p-1) + 2 by omega] at this
  have hD' : ∀ j, HasDerivAt (fun y => N (periodicKnot ℝ n p) p j y)
      ((n:ℝ) * (N (periodicKnot ℝ n p) (p-1) j x - N (periodicKnot ℝ n p) (p-1) (j+1) x)) x := by
    intro j
    refine (hD j).congr_deriv ?_
    rw [hgap, hgap', Nat.cast_sub hp]
    have hn' : (n : ℝ) ≠ 0 := by exact_mod_cast (by omega : n ≠ 0)
    have hp' : (p : ℝ) ≠ 0 := by exact_mod_cast (by omega : p ≠ 0)
    push_cast; field_simp; ring
  have hfun : (fun y => s.evaluate y i) = fun y =>
      if i < p then N (periodicKnot ℝ n p) p i y + N (periodicKnot ℝ n p) p (n + i) y
        else N (periodicKnot ℝ n p) p i y := by
    funext y
    rw [of_mk?_periodic h hs, eval_periodic n p hpn hn hfine y i hi]
  rw [hfun]
  -- vanishing functions at the two ends
  have z0 : N (periodicKnot ℝ n p) (p-1) 0 x = 0 := by
    apply N_eq_zero_of_ge hm
    rw [show 0 + (p-1) + 1 = p by omega, periodicKnot_p]; exact h0.le
  have z1 : N (periodicKnot ℝ n p) (p-1) (n+p) x = 0 := by
    apply N_eq_zero_of_lt hm
    rw [periodicKnot_add n p p hn, periodicKnot_p]; linarith
  have hprev : d.evaluate x ((i : Int) - 1) = (n:ℝ) * (if i < p then
      N (periodicKnot ℝ n p) (p-1) i x + N (periodicKnot ℝ n p) (p-1) (n+i) x
      else N (periodicKnot ℝ n p) (p-1) i x) := by
    by_cases hi0 : i = 0
    · subst hi0
      have : ((0 : Nat) : Int) - 1 = -1 := by norm_num
      rw [this, hneg, hval (n-1) (by omega), if_neg (by omega), if_pos (by omega), z0, zero_add,
        show n - 1 + 1 = n + 0 by omega]
    · have e : ((i : Int) - 1) = ((i - 1 : Nat) : Int) := by omega
      rw [e, hval (i-1) (by omega), show i - 1 + 1 = i by omega,
        show n + (i-1) + 1 = n + i by omega]
      by_cases hip : i < p
      · rw [if_pos hip, if_pos (by omega)]
      · rw [if_neg hip, if_neg (by omega)]
  rw [hprev, hval i hi]
  by_cases hip : i < p
  · simp only [if_pos hip]
    refine ((hD' i).add (hD' (n+i))).congr_deriv ?_
    by_cases hip' : i < p - 1
    · rw [if_pos hip']; ring
    · rw [if_neg hip', show n + i + 1 = n + p by omega, z1]; ring
  · simp only [if_neg hip]
    refine (hD' i).congr_deriv ?_
    rw [if_neg (by omega)]; ring

/-- Case: cubic, 8 splines, at 1/3 (the knots are multiples of 1/8), spline 2. -/
example := C07_periodic_derivative 8 3 (by norm_num) (by norm_num) (by norm_num) (by norm_num) _ (mk?_periodic 8 3 (by norm_num)) _
  (mk?_deriv_periodic 8 3 (by norm_num) (by norm_num) (by norm_num)) (1 / 3) (by norm_num) (by norm_num)
  (by norm_num [periodicList, Jax.slice, Jax.linspace01, List.range_succ, show Int.toNat 5 = 5 from rfl, show Int.toNat 8 = 8 from rfl, show Int.toNat 4 = 4 from rfl]) 2 (by norm_num)

/-- Top spline over a clamped end: on the last element the last spline is a pure power. -/
theorem N_last_power {τ : Nat → ℝ} (hτ : Monotone τ) (q i : Nat) (x : ℝ)
    (hq : ∀ k, 1 ≤ k → τ (i + k) = 1) (h0 : τ i ≤ x) (h1 : x < 1) :
    N τ q i x = ((x - τ i) / (1 - τ i)) ^ q := by
  induction q with
  | zero => simp [N, h0, hq 1 le_rfl, h1]
  | succ q ih =>
    simp only [N]
    rw [ih, show i + q + 1 = i + (q+1) by omega, hq (q+1) (by omega),
      show i + q + 2 = i + (q+2) by omega, hq (q+2) (by omega), hq 1 le_rfl]
    simp; ring

/-- **C08** The claim is false of the code at `x = 1`: for every clamped basis the last derivative
spline is evaluated as `0` there although its left limit is `p (n - p) > 0`. -/
theorem C08_last_derivative_wrong_at_one (n p : Nat) (hp : 1 ≤ p) (h : p < n)
    (hfine : n - p ≤ 99900)
    (s : SplineBasis ℝ) (hs : SplineBasis.mk? n p "clamped" = .ok s)
    (d : DerivativeSpline ℝ) (hd : DerivativeSpline.mk? s = .ok d) :
    d.evaluate 1 ((n : Int) - 2) = 0 ∧
      Tendsto (fun x => d.evaluate x ((n : Int) - 2)) (𝓝[<] 1) (𝓝 ((p : ℝ) * ((n : ℝ) - p)))
      ∧ (0 : ℝ) < p * ((n : ℝ) - p) := by
  have hm := monotone_clampedKnot (K := ℝ) n p h
  have hnp : (0 : ℝ) < (n : ℝ) - p := by
    have : (p : ℝ) < n := by exact_mod_cast h
    linarith
  have hp0 : (0 : ℝ) < p := by exact_mod_cast hp
  have e : ((n : Int) - 2) = ((n - 2 : Nat) : Int) := by omega
  rw [e]
  refine ⟨?_, ?_, by positivity⟩
  · have hd' := hd
    rw [of_mk?_clamped h hs, mk?_deriv_clamped n p hp h] at hd'
    rw [← Except.ok.inj hd']
    unfold DerivativeSpline.evaluate
    simp only [if_true, Nat.cast_lt]
    rw [if_pos (by omega)]
    unfold SplineBasis.evaluate
    rw [if_neg (show ¬ ("clamped" = "periodic") by decide), if_pos rfl,
      if_neg (by intro hc; have := hc.1; simp only at this; omega)]
    have e0 : (((n - 2 : Nat) : Int) + 1) = ((n - 1 : Nat) : Int) := by omega
    rw [e0, evaluate'_clamped (n-1) (p-1) "clamped" n p h hfine 1 (n-1) (by omega),
      N_clamped_at_one n p (p-1) (n-1) h (by omega)]
    simp
  · have hlt : clampedKnot ℝ n p (n-1) < 1 := clampedKnot_lt_one n p _ (by omega) h
    have hk : 1 - clampedKnot ℝ n p (n-1) = 1 / ((n : ℝ) - p) := by
      unfold clampedKnot
      split
      · have : n = p + 1 := by omega
        subst this; push_cast; simp
      · rw [if_neg (by omega), Nat.cast_sub (by omega), Nat.cast_sub (by omega), Nat.cast_sub (by omega)]
        push_cast; field_simp; ring
    have hev : (fun x => d.evaluate x ((n - 2 : Nat) : Int)) =ᶠ[𝓝[<] 1] fun x =>
        p * ((x - clampedKnot ℝ n p (n-1)) / (1 - clampedKnot ℝ n p (n-1))) ^ (p-1)
          / (1 - clampedKnot ℝ n p (n-1)) := by
      filter_upwards [self_mem_nhdsWithin,
        nhdsWithin_le_nhds (eventually_gt_nhds hlt)] with x hx1 hx2
      rw [C08_clamped_derivative_values n p hp h hfine s hs d hd x (ne_of_lt hx1),
        if_pos (by omega), show n - 2 + 1 = n - 1 by omega,
        N_last_power hm (p-1) (n-1) x (fun k hk => clampedKnot_one n p _ (by omega) h) (le_of_lt hx2) hx1,
        clampedKnot_one n p (n - 2 + p + 1) (by omega) h]
    refine Tendsto.congr' hev.symm ?_
    have hc : ContinuousAt (fun x : ℝ =>
        p * ((x - clampedKnot ℝ n p (n-1)) / (1 - clampedKnot ℝ n p (n-1))) ^ (p-1)
          / (1 - clampedKnot ℝ n p (n-1))) 1 := by fun_prop
    have := hc.tendsto.mono_left (nhdsWithin_le_nhds (s := Set.Iio 1))
    convert this using 2
    rw [div_self (by linarith), one_pow, hk]; field_simp

/-- Case: cubic, 8 splines. -/
example := C08_last_derivative_wrong_at_one 8 3 (by norm_num) (by norm_num) (by norm_num) _ (mk?_clamped 8 3 (Or.inl (by norm_num))) _
  (mk?_deriv_clamped 8 3 (by norm_num) (by norm_num))

/-- **C08** ... and the last-but-one derivative spline is evaluated as a positive number at `x = 1`
although it belongs to a spline that is constant `0` in the limit: its left limit is `0`. -/
theorem C08_second_last_derivative_wrong_at_one (n p : Nat) (hp : 1 ≤ p) (h : p < n) (hn : 3 ≤ n)
    (hfine : n - p ≤ 99900)
    (s : SplineBasis ℝ) (hs : SplineBasis.mk? n p "clamped" = .ok s)
    (d : DerivativeSpline ℝ) (hd : DerivativeSpline.mk? s = .ok d) :
    0 < d.evaluate 1 ((n : Int) - 3) ∧
      Tendsto (fun x => d.evaluate x ((n : Int) - 3)) (𝓝[<] 1) (𝓝 0) := by
  have hm := monotone_clampedKnot (K := ℝ) n p h
  have hp0 : (0 : ℝ) < p := by exact_mod_cast hp
  have hgap : 0 < clampedKnot ℝ n p (n - 3 + p + 1) - clampedKnot ℝ n p (n-2) := by
    have h2 : clampedKnot ℝ n p (n-2) < 1 := clampedKnot_lt_one n p _ (by omega) h
    by_cases hp2 : 2 ≤ p
    · rw [clampedKnot_one n p (n-3+p+1) (by omega) h]; linarith
    · have : p = 1 := by omega
      subst this
      have hnp : (0 : ℝ) < ((n - 1 : Nat) : ℝ) := by exact_mod_cast (by omega : 0 < n - 1)
      unfold clampedKnot
      rw [if_neg (by omega), if_neg (by omega)]
      split
      · rw [sub_zero]
        apply div_pos _ hnp
        exact_mod_cast (by omega : 0 < n - 3 + 1 + 1 - 1)
      · rw [if_neg (by omega), ← sub_div]
        apply div_pos _ hnp
        rw [sub_pos]; exact_mod_cast (by omega : n - 2 - 1 < n - 3 + 1 + 1 - 1)
  have e : ((n : Int) - 3) = ((n - 3 : Nat) : Int) := by omega
  rw [e]
  constructor
  · have hd' := hd
    rw [of_mk?_clamped h hs, mk?_deriv_clamped n p hp h] at hd'
    rw [← Except.ok.inj hd']
    unfold DerivativeSpline.evaluate
    simp only [if_true, Nat.cast_lt]
    rw [if_pos (by omega)]
    unfold SplineBasis.evaluate
    have e0 : (((n - 3 : Nat) : Int) + 1) = ((n - 2 : Nat) : Int) := by omega
    have e1 : (((n - 3 : Nat) : Int) + ((p - 1 : Nat) : Int) + 2) = ((n - 3 + p + 1 : Nat) : Int) := by
      omega
    rw [if_neg (show ¬ ("clamped" = "periodic") by decide), if_pos rfl, e1, e0,
      if_pos ⟨by simp only []; omega, (get_last_clamped n p h).symm⟩,
      get_clampedList n p h, get_clampedList n p h]
    apply div_pos _ hgap
    positivity
  · have hlt : clampedKnot ℝ n p (n-1) < 1 := clampedKnot_lt_one n p _ (by omega) h
    have hsq : ∀ᶠ x in 𝓝[<] (1:ℝ), 0 ≤ d.evaluate x ((n - 3 : Nat) : Int) ∧
        d.evaluate x ((n - 3 : Nat) : Int) ≤
          p * (1 - ((x - clampedKnot ℝ n p (n-1)) / (1 - clampedKnot ℝ n p (n-1))) ^ (p-1))
            / (clampedKnot ℝ n p (n - 3 + p + 1) - clampedKnot ℝ n p (n-2)) := by
      filter_upwards [self_mem_nhdsWithin,
        nhdsWithin_le_nhds (eventually_gt_nhds hlt)] with x hx1 hx2
      have hx1' : x < 1 := hx1
      rw [C08_clamped_derivative_values n p hp h hfine s hs d hd x (ne_of_lt hx1),
        if_pos (by omega), show n - 3 + 1 = n - 2 by omega]
      have hnn := N_nonneg hm (p-1) (n-2) x
      refine ⟨div_nonneg (by positivity) hgap.le, ?_⟩
      have h0x : 0 ≤ x := by
        have : 0 ≤ clampedKnot ℝ n p (n-1) := by
          rw [← clampedKnot_zero (K := ℝ) n p 0 (by omega)]; exact hm (by omega)
        exact this.trans (le_of_lt hx2)
      have hsum := N_sum hm (p := p - 1) (m := n) (x := x)
        (by rw [clampedKnot_zero n p _ (by omega)]; exact h0x)
        (by rw [clampedKnot_one n p n le_rfl h]; exact hx1')
      have hle : N (clampedKnot ℝ n p) (p-1) (n-2) x + N (clampedKnot ℝ n p) (p-1) (n-1) x ≤ 1 := by
        rw [← hsum, ← sum_pair (f := fun i => N (clampedKnot ℝ n p) (p - 1) i x)
          (show n - 2 ≠ n - 1 by omega)]
        apply sum_le_sum_of_subset_of_nonneg
        · intro k hk; simp only [mem_insert, mem_singleton] at hk; rw [mem_range]; omega
        · intro k _ _; exact N_nonneg hm _ _ _
      rw [N_last_power hm (p-1) (n-1) x (fun k hk => clampedKnot_one n p _ (by omega) h)
        (le_of_lt hx2) hx1'] at hle
      gcongr
      linarith
    have hc : ContinuousAt (fun x : ℝ =>
        p * (1 - ((x - clampedKnot ℝ n p (n-1)) / (1 - clampedKnot ℝ n p (n-1))) ^ (p-1))
            / (clampedKnot ℝ n p (n - 3 + p + 1) - clampedKnot ℝ n p (n-2))) 1 := by fun_prop
    have ht := hc.tendsto.mono_left (nhdsWithin_le_nhds (s := Set.Iio 1))
    rw [div_self (by linarith : (1:ℝ) - clampedKnot ℝ n p (n-1) ≠ 0), one_pow, sub_self, mul_zero, zero_div] at ht
    exact tendsto_of_tendsto_of_tendsto_of_le_of_le' tendsto_const_nhds ht
      (hsq.mono fun _ h => h.1) (hsq.mono fun _ h => h.2)

/-- Case: cubic, 8 splines. -/
example := C08_second_last_derivative_wrong_at_one 8 3 (by norm_num) (by norm_num) (by norm_num) (by norm_num) _ (mk?_clamped 8 3 (Or.inl (by norm_num))) _
  (mk?_deriv_clamped 8 3 (by norm_num) (by norm_num))

section Generic2
variable {K : Type*} [Field K] [LinearOrder K] [IsStrictOrderedRing K]

/-- **C09** The constructor succeeds exactly for the four documented types and `p < n` or `p = 1`. -/
theorem C09_constructor_accepts_iff (n p : Nat) (ty : String) :
    (∃ s : SplineBasis K, SplineBasis.mk? n p ty = .ok s) ↔
      ty ∈ ["clamped", "periodic", "constant", "fourier"] ∧ (p < n ∨ p = 1) := by
  have key : ∀ T : List K, ¬ (n ≤ p ∧ p ≠ 1) ↔ (p < n ∨ p = 1) := fun _ => by omega
  constructor
  · rintro ⟨s, hs⟩
    unfold SplineBasis.mk? at hs
    split at hs
    · cases hs
    · split at hs
      · cases hs
      · split at hs
        · cases hs
        · rename_i h1 h2
          exact ⟨not_not.mp h2, by omega⟩
  · rintro ⟨hty, hnp⟩
    have h1 : ¬ (n ≤ p ∧ p ≠ 1) := by omega
    have h2 : ¬ (n + 1 < p) := by omega
    have hk : ∃ T, SplineBasis.initKnots K n p ty = .ok T := by
      unfold SplineBasis.initKnots
      simp only [List.mem_cons, List.not_mem_nil, or_false] at hty
      rcases hty with rfl | rfl | rfl | rfl <;> simp [h2]
    obtain ⟨T, hT⟩ := hk
    refine ⟨⟨n, p, ty, T⟩, ?_⟩
    unfold SplineBasis.mk?
    simp only [hT]
    rw [if_neg h1, if_neg (not_not.mpr hty)]

/-- Case: 3 splines of degree 3 are rejected. -/
example : ¬ ∃ s : SplineBasis ℚ, SplineBasis.mk? 3 3 "clamped" = .ok s := fun h => by
  have := ((C09_constructor_accepts_iff (K := ℚ) 3 3 "clamped").mp h).2
  omega

/-- **C09** Attributes and number of knots of an accepted basis. -/
theorem C09_knot_count (n p : Nat) (hn : 1 ≤ n) (ty : String) (s : SplineBasis K)
    (hs : SplineBasis.mk? n p ty = .ok s) :
    s.n = n ∧ s.p = p ∧ s.type = ty ∧
      (ty = "clamped" → s.T.length = n + p + 1) ∧ (ty = "periodic" → s.T.length = n + 2 * p + 1) ∧
      (ty = "constant" → s.T.length = 2) ∧ (ty = "fourier" → s.T.length = n + 1) := by
  have hacc := (C09_constructor_accepts_iff (K := K) n p ty).mp ⟨s, hs⟩
  unfold SplineBasis.mk? at hs
  split at hs
  · cases hs
  · rename_i T hT
    rw [if_neg (by omega), if_neg (not_not.mpr hacc.1)] at hs
    obtain rfl := Except.ok.inj hs
    simp only at hT
    refine ⟨rfl, rfl, rfl, ?_, ?_, ?_, ?_⟩
    · rintro rfl
      rw [initKnots_clamped n p (by omega)] at hT
      rw [← Except.ok.inj hT]; exact length_clampedList n p (by omega)
    · rintro rfl
      rw [initKnots_periodic n p] at hT
      rw [← Except.ok.inj hT]; exact length_periodicList n p (by omega)
    · rintro rfl
      simp [SplineBasis.initKnots] at hT; simp [← hT]
    · rintro rfl
      simp [SplineBasis.initKnots] at hT; simp [← hT, length_linspace01]

/-- Case: 8 cubic periodic splines have 15 knots. -/
example := (C09_knot_count (K := ℚ) 8 3 (by norm_num) "periodic" _ (mk?_periodic 8 3 (by norm_num))).2.2.2.2.1 rfl

/-- **C09** Constant and fourier bases (and their derivatives) evaluate to `1`. -/
theorem C09_constant_evaluates_to_one (n p : Nat) (ty : String) (hty : ty = "constant" ∨ ty = "fourier")
    (s : SplineBasis K) (hs : SplineBasis.mk? n p ty = .ok s) (x : K) (i : Int) :
    s.evaluate x i = 1 := by
  have hacc := (C09_constructor_accepts_iff (K := K) n p ty).mp ⟨s, hs⟩
  unfold SplineBasis.mk? at hs
  split at hs
  · cases hs
  · rw [if_neg (by omega), if_neg (not_not.mpr hacc.1)] at hs
    obtain rfl := Except.ok.inj hs
    rcases hty with rfl | rfl <;> simp [SplineBasis.evaluate]

/-- Case: the constant basis of the axisymmetric scripts. -/
example : ∃ s : SplineBasis ℚ, SplineBasis.mk? 1 0 "constant" = .ok s ∧ ∀ x i, s.evaluate x i = 1 := by
  obtain ⟨s, hs⟩ := (C09_constructor_accepts_iff (K := ℚ) 1 0 "constant").mpr (by simp)
  exact ⟨s, hs, C09_constant_evaluates_to_one 1 0 "constant" (Or.inl rfl) s hs⟩

/-- **C01** excluded point: `SplineBasis(1, 1, 'clamped')` is accepted but its single function is
`1 - x`-like, not `1`: the partition of unity fails for `n = p = 1` at `x = 1/2`. -/
theorem C01_fails_for_n_eq_p_eq_one :
    ∃ s : SplineBasis ℚ, SplineBasis.mk? 1 1 "clamped" = .ok s ∧
      ∑ i ∈ range 1, s.evaluate (1/2) (i : Int) ≠ 1 := by
  refine ⟨⟨1, 1, "clamped", clampedList ℚ 1 1⟩, mk?_clamped 1 1 (by omega), ?_⟩
  decide +kernel

/-- **C01** excluded range: with more than 99900 elements the last element is narrower than the
tolerance of `jnp.isclose`; every piecewise constant spline is evaluated as `0` there and the partition of
unity fails. -/
theorem C01_fails_for_huge_n (n : Nat) (h : 99901 ≤ n) (s : SplineBasis K)
    (hs : SplineBasis.mk? n 0 "clamped" = .ok s)
    (x : K) (hx : clampedKnot K n 0 (n-1) < x) (hx1 : x < 1) :
    ∑ i ∈ range n, s.evaluate x (i : Int) = 0 := by
  have e := of_mk?_clamped (by omega : 0 < n) hs
  subst e
  have hl := length_clampedList (K := K) n 0 (by omega)
  apply sum_eq_zero
  intro i hi
  rw [mem_range] at hi
  unfold SplineBasis.evaluate
  rw [if_neg (show ¬ ("clamped" = "periodic") by decide), if_pos rfl, if_neg]
  · simp only [SplineBasis.evaluate', SplineBasis.pSpline, SplineBasis.constSpline]
    have hg : ∀ k : Nat, k < 2 →
        Jax.get (Jax.dynamicSlice (clampedList K n 0) (i : Int) (0 + 2)) (k : Int)
          = clampedKnot K n 0 (i + k) := by
      intro k hk
      rw [← get_clampedList n 0 (by omega), Jax.dynamicSlice_eq _ _ _ (by omega),
        Jax.get_of_lt _ _ (by simp; omega), Jax.get_of_lt _ _ (by omega)]
      simp
    have g0 := hg 0 (by omega); have g1 := hg 1 (by omega)
    simp only [Nat.cast_zero, Nat.cast_one] at g0 g1
    rw [g0, g1]
    simp only [Nat.add_zero]
    split
    · split
      · rfl
      · rename_i hcl
        rw [if_neg]
        rintro ⟨_, hb⟩
        by_cases hin : i = n - 1
        · subst hin
          apply hcl
          rw [show n - 1 + 1 = n by omega, clampedKnot_one n 0 n le_rfl (by omega)]
          unfold Jax.isclose
          have hnp : (0 : K) < n := by exact_mod_cast (by omega : 0 < n)
          have hk : clampedKnot K n 0 (n-1) = 1 - 1 / n := by
            unfold clampedKnot
            rw [if_neg (by omega), if_neg (by omega), Nat.sub_zero, Nat.sub_zero, Nat.cast_sub (by omega)]
            field_simp; push_cast; ring
          rw [hk, sub_sub_cancel_left, abs_neg, abs_of_nonneg (by positivity), abs_one]
          have h2 : (99901 : K) ≤ n := by exact_mod_cast h
          have h3 : (1 : K) / n ≤ 1 / 99901 := by gcongr
          have h4 : (1 : K) / 99901 ≤ 1 / 10 ^ 8 + 1 / 10 ^ 5 * 1 := by norm_num
          exact h3.trans h4
        · have hm := monotone_clampedKnot (K := K) n 0 (by omega)
          exact absurd (hb.trans_le (hm (by omega : i + 1 ≤ n - 1))) (not_lt.mpr hx.le)
    · rfl
  · rintro ⟨_, hc⟩
    rw [get_last_clamped n 0 (by omega)] at hc
    exact hx1.ne hc

/-- Case: 100000 piecewise constants, just left of 1. -/
example := C01_fails_for_huge_n (K := ℚ) 100000 (by norm_num) _ (mk?_clamped 100000 0 (Or.inl (by norm_num))) (1 - 1 / 200000)
  (by norm_num [clampedKnot]) (by norm_num)

/-- **C10** `TensorBasis` accepts exactly three bases. -/
theorem C10_tensor_requires_three (bs : List (Basis1 K)) :
    (∃ t, TensorBasis.mk? bs = .ok t) ↔ bs.length = 3 := by
  unfold TensorBasis.mk?
  split
  · simp_all
  · simp_all

/-- **C10** Tensor-product function number `(i * n1 + j) * n2 + k` is the product of the factors. -/
theorem C10_tensor_evaluate (b0 b1 b2 : Basis1 K) (t : TensorBasis K)
    (ht : TensorBasis.mk? [b0, b1, b2] = .ok t) (x y z : K) (i j k : Nat)
    (hi : i < b0.n) (hj : j < b1.n) (hk : k < b2.n) :
    t.evaluate [x, y, z] ((i * b1.n + j) * b2.n + k)
      = .ok (b0.evaluate x i * b1.evaluate y j * b2.evaluate z k) ∧
    (i * b1.n + j) * b2.n + k < t.n := by
  simp only [TensorBasis.mk?] at ht
  simp only [List.length_cons, List.length_nil, ne_eq, not_true_eq_false, if_false] at ht
  obtain rfl := Except.ok.inj ht
  constructor
  · simp only [TensorBasis.evaluate, List.length_cons, List.length_nil, ne_eq, not_true_eq_false,
      if_false, Jax.unravelIndex3_flat hi hj hk]
  · exact Jax.flat_lt hi hj hk

/-- Case: products of 8 cubic clamped, 6 quadratic periodic and 4 linear periodic splines. -/
example (x y z : ℚ) := C10_tensor_evaluate (.spline (SplineBasis.mk 8 3 "clamped" (clampedList ℚ 8 3))) (.spline (SplineBasis.mk 6 2 "periodic" (periodicList ℚ 6 2)))
  (.spline (SplineBasis.mk 4 1 "periodic" (periodicList ℚ 4 1))) _ rfl x y z 7 0 3 (by norm_num [Basis1.n]) (by norm_num [Basis1.n]) (by norm_num [Basis1.n])

/-- **C10** Every index below `n` is the index of exactly one triple. -/
theorem C10_tensor_index_unique (b0 b1 b2 : Basis1 K) (t : TensorBasis K)
    (ht : TensorBasis.mk? [b0, b1, b2] = .ok t) (I : Nat) (hI : I < t.n) :
    ∃! ijk : Nat × Nat × Nat, ijk.1 < b0.n ∧ ijk.2.1 < b1.n ∧ ijk.2.2 < b2.n ∧
      (ijk.1 * b1.n + ijk.2.1) * b2.n + ijk.2.2 = I := by
  simp only [TensorBasis.mk?, List.length_cons, List.length_nil, ne_eq, not_true_eq_false, if_false] at ht
  obtain rfl := Except.ok.inj ht
  have hI' : I < b0.n * b1.n * b2.n := hI
  refine ⟨Jax.unravelIndex3 I b0.n b1.n b2.n, Jax.unravelIndex3_spec hI', ?_⟩
  rintro ⟨i, j, k⟩ ⟨h1, h2, h3, h4⟩
  rw [← h4, Jax.unravelIndex3_flat h1 h2 h3]

/-- Case: the same product basis, index 100. -/
example := C10_tensor_index_unique (K := ℚ) (.spline (SplineBasis.mk 8 3 "clamped" (clampedList ℚ 8 3))) (.spline (SplineBasis.mk 6 2 "periodic" (periodicList ℚ 6 2)))
  (.spline (SplineBasis.mk 4 1 "periodic" (periodicList ℚ 4 1))) _ rfl 100 (by decide)

/-- **C10** Three-dimensional partition of unity. -/
theorem C10_tensor_partition_of_unity (b0 b1 b2 : Basis1 K) (t : TensorBasis K)
    (ht : TensorBasis.mk? [b0, b1, b2] = .ok t) (x y z : K)
    (h0 : ∑ i ∈ range b0.n, b0.evaluate x (i : Int) = 1)
    (h1 : ∑ i ∈ range b1.n, b1.evaluate y (i : Int) = 1)
    (h2 : ∑ i ∈ range b2.n, b2.evaluate z (i : Int) = 1) (v : Nat → K)
    (hv : ∀ I < t.n, t.evaluate [x, y, z] I = .ok (v I)) :
    ∑ I ∈ range t.n, v I = 1 := by
  have ht' := ht
  simp only [TensorBasis.mk?, List.length_cons, List.length_nil, ne_eq, not_true_eq_false, if_false] at ht'
  have hn : t.n = b0.n * b1.n * b2.n := by rw [← Except.ok.inj ht']; rfl
  rw [hn, Jax.sum_range_mul3]
  have : ∀ i ∈ range b0.n, ∀ j ∈ range b1.n, ∀ k ∈ range b2.n, v ((i * b1.n + j) * b2.n + k)
      = b0.evaluate x i * b1.evaluate y j * b2.evaluate z k := by
    intro i hi j hj k hk
    have he := C10_tensor_evaluate b0 b1 b2 t ht x y z i j k (mem_range.mp hi) (mem_range.mp hj)
      (mem_range.mp hk)
    have := hv _ he.2
    rw [he.1] at this
    exact (Except.ok.inj this).symm
  rw [sum_congr rfl fun i hi => sum_congr rfl fun j hj => sum_congr rfl fun k hk => this i hi j hj k hk]
  simp only [← mul_sum, h2, mul_one, h1, h0]

end Generic2

/-! ## The hypotheses are met by concrete objects -/

example : ∃ s : SplineBasis ℚ, SplineBasis.mk? 5 2 "clamped" = .ok s ∧
    s.evaluate (1/2) 2 = 3/4 ∧ s.evaluate (1/2) 1 = 1/8 ∧ s.evaluate 1 4 = 1 :=
  ⟨_, mk?_clamped 5 2 (by omega), by decide +kernel, by decide +kernel, by decide +kernel⟩

example : ∃ s : SplineBasis ℚ, SplineBasis.mk? 4 3 "periodic" = .ok s ∧
    s.evaluate 0 0 = 1/6 ∧ s.evaluate 0 1 = 2/3 ∧ s.evaluate (1/8) 3 ≠ 0 :=
  ⟨_, mk?_periodic 4 3 (by omega), by decide +kernel, by decide +kernel, by decide +kernel⟩

example : ∃ (s : SplineBasis ℝ) (d : DerivativeSpline ℝ), SplineBasis.mk? 5 2 "clamped" = .ok s ∧
    DerivativeSpline.mk? s = .ok d ∧ (1/2 : ℝ) < 1 ∧ (1/2 : ℝ) ∉ s.T := by
  refine ⟨_, _, mk?_clamped 5 2 (by omega), mk?_deriv_clamped 5 2 (by omega) (by omega), by norm_num, ?_⟩
  intro hc
  obtain ⟨k, hk⟩ := mem_get_of_mem hc
  rw [get_clampedList 5 2 (by omega)] at hk
  obtain ⟨z, hz⟩ := (clampedKnot_grid (K := ℝ) 5 2 k (by omega)).2
  rw [← hk] at hz
  norm_num at hz
  have : (3 : ℝ) = 2 * z := by linarith
  have h3 : (3 : Int) = 2 * z := by exact_mod_cast this
  omega

example : ∃ t : TensorBasis ℚ, TensorBasis.mk? [.spline ⟨1, 1, "constant", [0, 1]⟩,
    .spline ⟨5, 2, "clamped", clampedList ℚ 5 2⟩, .spline ⟨4, 3, "periodic", periodicList ℚ 4 3⟩] = .ok t ∧
    t.n = 20 := ⟨_, rfl, rfl⟩

end Mrx.Props
