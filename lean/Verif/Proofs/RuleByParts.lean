import Verif.Proofs.LocalPoly
import Verif.Props.Quadrature
import Verif.Props.Splines2
import Verif.Proofs.Collocation
import Mathlib.Analysis.Calculus.Deriv.Polynomial

/-! # Integration by parts with the composite rule for piecewise polynomials -/

set_option linter.unusedSectionVars false
set_option linter.unusedVariables false

namespace Mrx
open Finset Spec Polynomial Quad Props

/-- The reference map of the interval `[a, b]`. -/
noncomputable def refMap (a b : ℝ) : ℝ[X] := C ((b - a) / 2) * X + C ((a + b) / 2)

/-- The relative error of the tabulated rule with `k` points on derivatives of products of polynomials of degree `p`: none for linear
polynomials and one or two points (whose tabulated weights are exact), else that of the decimals of the table. -/
noncomputable def tabEps (k p : Nat) : ℝ := if p ≤ 1 ∧ k ≤ 2 then 0 else 3 / 10 ^ 16

theorem tabEps_nonneg (k p : Nat) : 0 ≤ tabEps k p := by unfold tabEps; split_ifs <;> norm_num
theorem tabEps_le (k p : Nat) : tabEps k p ≤ 3 / 10 ^ 16 := by unfold tabEps; split_ifs <;> norm_num

theorem element_linear {k : Nat} (h1 : 1 ≤ k) (h2 : k ≤ 2) (P Q : ℝ[X]) (hP : P.natDegree ≤ 1) (hQ : Q.natDegree ≤ 1) (a b : ℝ) :
    applyRule (rescale (nodesAndWeights k) a b) (fun x => P.eval x * (derivative Q).eval x + (derivative P).eval x * Q.eval x)
      = P.eval b * Q.eval b - P.eval a * Q.eval a := by
  obtain ⟨c, d, rfl⟩ := exists_eq_X_add_C_of_natDegree_le_one hP
  obtain ⟨c', d', rfl⟩ := exists_eq_X_add_C_of_natDegree_le_one hQ
  obtain rfl | rfl : k = 1 ∨ k = 2 := by omega
  · simp [applyRule, rescale, nodesAndWeights, gauss1Nodes, gauss1Weights]
    ring
  · simp [applyRule, rescale, nodesAndWeights, gauss2Nodes, gauss2Weights]
    ring

/-- One element: the rule applied to the derivative of a product. -/
theorem element_ibp {k p : Nat} (h1 : 1 ≤ k) (h2 : k ≤ 10) (hk : p ≤ k) (P Q : ℝ[X]) (hP : P.natDegree ≤ p) (hQ : Q.natDegree ≤ p)
    {a b : ℝ} (hab : a < b) :
    |applyRule (rescale (nodesAndWeights k) a b) (fun x => P.eval x * (derivative Q).eval x + (derivative P).eval x * Q.eval x)
      - (P.eval b * Q.eval b - P.eval a * Q.eval a)| ≤ tabEps k p * (2 * p) * (ell (P.comp (refMap a b)) * ell (Q.comp (refMap a b))) := by
  by_cases hkp : p ≤ 1 ∧ k ≤ 2
  · rw [element_linear h1 hkp.2 P Q (hP.trans hkp.1) (hQ.trans hkp.1), sub_self, abs_zero]
    exact mul_nonneg (mul_nonneg (tabEps_nonneg _ _) (by positivity)) (mul_nonneg (ell_nonneg _) (ell_nonneg _))
  rw [show tabEps k p = 3 / 10 ^ 16 from if_neg hkp]
  have hd : (P * Q).natDegree ≤ 2 * p := natDegree_mul_le.trans (by omega)
  have hdd : (derivative (P * Q)).natDegree < 2 * k := by
    have := natDegree_derivative_le (P * Q)
    omega
  have he := element_exact h1 h2 (derivative (P * Q)) hdd a b hab
  have hi : ∫ x in a..b, (derivative (P * Q)).eval x = P.eval b * Q.eval b - P.eval a * Q.eval a := by
    rw [intervalIntegral.integral_eq_sub_of_hasDerivAt (fun x _ => (P * Q).hasDerivAt x)
      ((derivative (P * Q)).continuous.intervalIntegrable _ _)]
    simp
  rw [hi] at he
  have hf : (fun x => (derivative (P * Q)).eval x) = fun x => P.eval x * (derivative Q).eval x + (derivative P).eval x * Q.eval x := by
    funext x
    simp only [derivative_mul, eval_add, eval_mul]
    ring
  rw [hf] at he
  refine he.trans ?_
  have hpos : 0 < (b - a) / 2 := by linarith
  have hs : (b - a) / 2 * coeffSize (derivative (P * Q)) a b (2 * k) ≤ (2 * p) * (ell (P.comp (refMap a b)) * ell (Q.comp (refMap a b))) := by
    have c1 : coeffSize (derivative (P * Q)) a b (2 * k) ≤ ell ((derivative (P * Q)).comp (refMap a b)) := sum_le_ell _ _
    have c2 : C ((b - a) / 2) * (derivative (P * Q)).comp (refMap a b) = derivative ((P * Q).comp (refMap a b)) := by
      rw [derivative_comp]
      congr 1
      unfold refMap
      simp
    have c3 : (b - a) / 2 * ell ((derivative (P * Q)).comp (refMap a b)) = ell (derivative ((P * Q).comp (refMap a b))) := by
      rw [← c2, ell_C_mul, abs_of_pos hpos]
    have c4 : ((P * Q).comp (refMap a b)).natDegree ≤ 2 * p := by
      refine natDegree_comp_le.trans ?_
      have : (refMap a b).natDegree ≤ 1 := natDegree_linear_le
      calc _ ≤ (2 * p) * 1 := Nat.mul_le_mul hd this
        _ = 2 * p := by omega
    calc _ ≤ (b - a) / 2 * ell ((derivative (P * Q)).comp (refMap a b)) := mul_le_mul_of_nonneg_left c1 hpos.le
      _ = ell (derivative ((P * Q).comp (refMap a b))) := c3
      _ ≤ ((2 * p : Nat) : ℝ) * ell ((P * Q).comp (refMap a b)) := ell_derivative _ c4
      _ ≤ _ := by
        rw [mul_comp]
        push_cast
        exact mul_le_mul_of_nonneg_left (ell_mul _ _) (by positivity)
  calc _ ≤ 3 / 10 ^ 16 * ((2 * p) * (ell (P.comp (refMap a b)) * ell (Q.comp (refMap a b)))) :=
      mul_le_mul_of_nonneg_left hs (by norm_num)
    _ = _ := by ring

/-- On each of `m` uniform elements (ends included) `f` is a polynomial of degree at most `p` and coefficient size at most `K`. -/
def Piecewise (m p : Nat) (K : ℝ) (f : ℝ → ℝ) : Prop :=
  ∀ e < m, ∃ P : ℝ[X], P.natDegree ≤ p ∧ (∀ x, (e : ℝ) / m ≤ x → x ≤ ((e + 1 : Nat) : ℝ) / m → f x = P.eval x) ∧
    ell (P.comp (refMap ((e : ℝ) / m) (((e + 1 : Nat) : ℝ) / m))) ≤ K

theorem zip_linspace (m : Nat) : (Jax.linspace01 ℝ (m + 1)).zip (Jax.linspace01 ℝ (m + 1)).tail
    = (List.range m).map fun e : Nat => ((e : ℝ) / m, ((e + 1 : Nat) : ℝ) / m) := by
  refine List.ext_getElem ?_ fun i hi hi' => ?_
  · simp [length_linspace01]
  · simp only [List.getElem_zip, List.getElem_tail, List.getElem_map, List.getElem_range, getElem_linspace01]
    simp

/-- The composite rule as a sum over elements. -/
theorem composite_sum (m k : Nat) (h1 : 1 ≤ k) (h2 : k ≤ 10) (F : ℝ → ℝ) :
    applyRule (compositeQuad (Jax.linspace01 ℝ (m + 1)) k) F
      = ∑ e ∈ range m, applyRule (rescale (nodesAndWeights k) ((e : ℝ) / m) (((e + 1 : Nat) : ℝ) / m)) F := by
  rw [compositeQuad_eq, applyRule_flatMap _ _ _ k (fun e _ => (length_rescale h1 h2 e.1 e.2).1)
    (fun e _ => (length_rescale h1 h2 e.1 e.2).2), zip_linspace, List.map_map]
  rw [Finset.sum_range, ← List.sum_ofFn, List.ofFn_eq_map]
  congr 1
  rw [← List.map_coe_finRange_eq_range, List.map_map]
  rfl

/-- Points of a rescaled rule lie strictly inside. -/
theorem rescale_inside {k : Nat} (h1 : 1 ≤ k) (h2 : k ≤ 10) {a b : ℝ} (hab : a < b) {x : ℝ} (hx : x ∈ (rescale (nodesAndWeights k) a b).1) :
    a < x ∧ x < b := by
  obtain ⟨l1, l2, hin, hw, _⟩ := table_nodes k (List.mem_range.mpr (by omega)) h1
  unfold rescale at hx
  obtain ⟨t, ht, rfl⟩ := List.mem_map.mp hx
  obtain ⟨t1, t2⟩ := hin t ht
  have t1' : (-1 : ℝ) < (t : ℝ) := by exact_mod_cast t1
  have t2' : (t : ℝ) < 1 := by exact_mod_cast t2
  constructor <;> nlinarith

theorem applyRule_congr {xw : List ℝ × List ℝ} {f g : ℝ → ℝ} (h : ∀ x ∈ xw.1, f x = g x) : applyRule xw f = applyRule xw g := by
  unfold applyRule
  congr 1
  refine List.map_congr_left fun t ht => ?_
  rw [h t.1 (List.of_mem_zip ht).1]

/-- Integration by parts with the composite rule. -/
theorem rule_ibp {m k p : Nat} (hm : 1 ≤ m) (h1 : 1 ≤ k) (h2 : k ≤ 10) (hk : p ≤ k) {K : ℝ} (hK : 0 ≤ K) {f g : ℝ → ℝ}
    (hf : Piecewise m p K f) (hg : Piecewise m p K g) :
    |applyRule (compositeQuad (Jax.linspace01 ℝ (m + 1)) k) (fun x => f x * deriv g x + deriv f x * g x) - (f 1 * g 1 - f 0 * g 0)|
      ≤ m * (tabEps k p * (2 * p) * K ^ 2) := by
  rw [composite_sum m k h1 h2]
  have hm' : (0 : ℝ) < m := by exact_mod_cast hm
  have tel : f 1 * g 1 - f 0 * g 0 = ∑ e ∈ range m, (f (((e + 1 : Nat) : ℝ) / m) * g (((e + 1 : Nat) : ℝ) / m)
      - f ((e : ℝ) / m) * g ((e : ℝ) / m)) := by
    rw [Finset.sum_range_sub (fun e : Nat => f ((e : ℝ) / m) * g ((e : ℝ) / m)), div_self hm'.ne']
    simp
  rw [tel, ← Finset.sum_sub_distrib]
  refine (Finset.abs_sum_le_sum_abs _ _).trans ?_
  have : ∀ e ∈ range m, |applyRule (rescale (nodesAndWeights k) ((e : ℝ) / m) (((e + 1 : Nat) : ℝ) / m)) (fun x => f x * deriv g x + deriv f x * g x)
      - (f (((e + 1 : Nat) : ℝ) / m) * g (((e + 1 : Nat) : ℝ) / m) - f ((e : ℝ) / m) * g ((e : ℝ) / m))| ≤ tabEps k p * (2 * p) * K ^ 2 := by
    intro e he
    obtain ⟨P, dP, vP, sP⟩ := hf e (mem_range.mp he)
    obtain ⟨Q, dQ, vQ, sQ⟩ := hg e (mem_range.mp he)
    have hab : (e : ℝ) / m < ((e + 1 : Nat) : ℝ) / m := by
      push_cast
      exact (div_lt_div_iff_of_pos_right hm').mpr (by linarith)
    generalize (e : ℝ) / m = a at *
    generalize ((e + 1 : Nat) : ℝ) / m = b at *
    have dv : ∀ (u : ℝ → ℝ) (R : ℝ[X]), (∀ x, a ≤ x → x ≤ b → u x = R.eval x) → ∀ x, a < x → x < b → deriv u x = (derivative R).eval x := by
      intro u R hu x hx1 hx2
      have ev : u =ᶠ[nhds x] fun y => R.eval y := by
        filter_upwards [Ioo_mem_nhds hx1 hx2] with y hy
        exact hu y hy.1.le hy.2.le
      rw [ev.deriv_eq, Polynomial.deriv]
    rw [applyRule_congr (g := fun x => P.eval x * (derivative Q).eval x + (derivative P).eval x * Q.eval x) (fun x hx => by
      obtain ⟨x1, x2⟩ := rescale_inside h1 h2 hab hx
      rw [vP x x1.le x2.le, vQ x x1.le x2.le, dv f P vP x x1 x2, dv g Q vQ x x1 x2])]
    rw [vP b hab.le le_rfl, vQ b hab.le le_rfl, vP a le_rfl hab.le, vQ a le_rfl hab.le]
    refine (element_ibp h1 h2 hk P Q dP dQ hab).trans ?_
    refine mul_le_mul_of_nonneg_left ?_ (mul_nonneg (tabEps_nonneg _ _) (by positivity))
    rw [sq]
    exact mul_le_mul sP sQ (ell_nonneg _) hK
  refine (Finset.sum_le_sum this).trans (le_of_eq ?_)
  rw [Finset.sum_const, card_range, nsmul_eq_mul]

/-! ## The bases are piecewise polynomial -/

theorem piecewise_clamped {n p : Nat} (hp : 1 ≤ p) (h : p < n) (hfine : n - p ≤ 99900) {s : SplineBasis ℝ}
    (hs : SplineBasis.mk? n p "clamped" = .ok s) {i : Nat} (hi : i < n) :
    Piecewise (n - p) p (2 ^ p) (fun x => s.evaluate x i) := by
  intro e he
  have hm := monotone_clampedKnot (K := ℝ) n p h
  have hend := C05_clamped_endpoints n p h hfine s hs i hi
  rw [of_mk?_clamped h hs] at hend ⊢
  have hM : (0 : ℝ) < ((n - p : Nat) : ℝ) := by exact_mod_cast (by omega : 0 < n - p)
  have k0 := clampedKnot_elem n p e he.le h
  have k1 := clampedKnot_elem n p (e + 1) he h
  have hlt : clampedKnot ℝ n p (p + e) < clampedKnot ℝ n p (p + e + 1) := by
    rw [k0, show p + e + 1 = p + (e + 1) by omega, k1]
    push_cast
    exact (div_lt_div_iff_of_pos_right hM).mpr (by linarith)
  have hsz := NP_size hm (p + e) p i hlt
  rw [show p + e + 1 = p + (e + 1) by omega, k0, k1] at hsz
  refine ⟨NP (clampedKnot ℝ n p) (p + e) p i, NP_natDegree _ _ _ _, fun x h1 h2 => ?_, hsz⟩
  rw [← k0] at h1
  rw [← k1, show p + (e + 1) = p + e + 1 by omega] at h2
  rcases h2.lt_or_eq with h2' | h2'
  · beta_reduce
    rw [NP_eval hm _ _ _ h1 h2', eval_clamped n p h hfine x i hi, if_neg]
    rintro ⟨_, rfl⟩
    exact absurd (clampedKnot_le_one (K := ℝ) n p (p + e + 1) h) (by linarith)
  · subst h2'
    by_cases hl : e + 1 = n - p
    · have e1 : clampedKnot ℝ n p (p + e + 1) = 1 := clampedKnot_one n p _ (by omega) h
      rw [NP_right_end _ (p + e) p hlt (fun k hk1 hk2 => by
        rw [e1]; exact clampedKnot_one n p _ (by omega) h) p i le_rfl, e1]
      beta_reduce
      rw [hend.2]
      congr 1
      exact propext ⟨fun _ => by omega, fun _ => by omega⟩
    · have k2 := clampedKnot_elem n p (e + 2) (by omega) h
      have hlt2 : clampedKnot ℝ n p (p + e + 1) < clampedKnot ℝ n p (p + e + 2) := by
        rw [show p + e + 1 = p + (e + 1) by omega, show p + e + 2 = p + (e + 2) by omega, k1, k2]
        push_cast
        exact (div_lt_div_iff_of_pos_right hM).mpr (by linarith)
      obtain ⟨p', rfl⟩ : ∃ p', p = p' + 1 := ⟨p - 1, by omega⟩
      beta_reduce
      rw [NP_eval_right hm _ _ _ hlt hlt2, eval_clamped n (p' + 1) h hfine _ i hi, if_neg]
      rintro ⟨_, hx⟩
      rw [hx] at hlt2
      exact absurd (clampedKnot_le_one (K := ℝ) n (p' + 1) _ h) (by linarith)

theorem piecewise_periodic {n p : Nat} (hp : 1 ≤ p) (hn : 1 ≤ n) (h : p < n ∨ p = 1) (hfine : n ≤ 49975) {s : SplineBasis ℝ}
    (hs : SplineBasis.mk? n p "periodic" = .ok s) {i : Nat} (hi : i < n) :
    Piecewise n p (2 ^ (p + 1)) (fun x => s.evaluate x i) := by
  intro e he
  have hsm := strictMono_periodicKnot (K := ℝ) n p hn
  have hm := hsm.monotone
  rw [of_mk?_periodic h hs]
  have k0 : periodicKnot ℝ n p (p + e) = (e : ℝ) / n := by unfold periodicKnot; push_cast; ring
  have k1 : periodicKnot ℝ n p (p + e + 1) = ((e + 1 : Nat) : ℝ) / n := by unfold periodicKnot; push_cast; ring
  have hlt := hsm (show p + e < p + e + 1 by omega)
  have hlt2 := hsm (show p + e + 1 < p + e + 2 by omega)
  have val : ∀ j x, (e : ℝ) / n ≤ x → x ≤ ((e + 1 : Nat) : ℝ) / n → N (periodicKnot ℝ n p) p j x = (NP (periodicKnot ℝ n p) (p + e) p j).eval x := by
    intro j x h1 h2
    rw [← k0] at h1
    rw [← k1] at h2
    rcases h2.lt_or_eq with h2' | h2'
    · rw [NP_eval hm _ _ _ h1 h2']
    · subst h2'
      obtain ⟨p', rfl⟩ : ∃ p', p = p' + 1 := ⟨p - 1, by omega⟩
      rw [NP_eval_right hm _ _ _ hlt hlt2]
  have size : ∀ j, ell ((NP (periodicKnot ℝ n p) (p + e) p j).comp (refMap ((e : ℝ) / n) (((e + 1 : Nat) : ℝ) / n))) ≤ 2 ^ p := by
    intro j
    have := NP_size hm (p + e) p j hlt
    rw [k0, k1] at this
    exact this
  by_cases hip : i < p
  · refine ⟨NP (periodicKnot ℝ n p) (p + e) p i + NP (periodicKnot ℝ n p) (p + e) p (n + i), ?_, fun x h1 h2 => ?_, ?_⟩
    · exact (natDegree_add_le _ _).trans (max_le (NP_natDegree _ _ _ _) (NP_natDegree _ _ _ _))
    · beta_reduce
      rw [eval_periodic n p (by omega) hn hfine x i hi, if_pos hip, eval_add, val i x h1 h2, val (n + i) x h1 h2]
    · rw [add_comp, pow_succ]
      have := ell_add ((NP (periodicKnot ℝ n p) (p + e) p i).comp (refMap ((e : ℝ) / n) (((e + 1 : Nat) : ℝ) / n)))
        ((NP (periodicKnot ℝ n p) (p + e) p (n + i)).comp (refMap ((e : ℝ) / n) (((e + 1 : Nat) : ℝ) / n)))
      linarith [size i, size (n + i)]
  · refine ⟨NP (periodicKnot ℝ n p) (p + e) p i, NP_natDegree _ _ _ _, fun x h1 h2 => ?_, ?_⟩
    · beta_reduce
      rw [eval_periodic n p (by omega) hn hfine x i hi, if_neg hip, val i x h1 h2]
    · refine (size i).trans ?_
      exact pow_le_pow_right₀ (by norm_num) (by omega)

end Mrx
