import Verif.Props.Splines2
import Verif.Proofs.Quadrature

/-! # Periodic splines and their quadrature points under a shift by whole cells -/

set_option linter.unusedSectionVars false

namespace Mrx
open Finset Jax Quad Props Spec

section Generic
variable {K : Type*} [Field K] [LinearOrder K] [IsStrictOrderedRing K]

theorem N_periodic_shift {n : Nat} (hn : 0 < n) (p a q i : Nat) (x : K) :
    N (periodicKnot K n p) q (i + a) (x + (a : K) / n) = N (periodicKnot K n p) q i x := by
  have hn' : (n : K) ≠ 0 := by exact_mod_cast hn.ne'
  have hk : ∀ k, periodicKnot K n p (k + a) = periodicKnot K n p k + (a : K) / n := fun k => by
    unfold periodicKnot; push_cast; field_simp; ring
  induction q generalizing i with
  | zero =>
    simp only [N]
    rw [show i + a + 1 = i + 1 + a by omega, hk, hk]
    simp only [add_le_add_iff_right, add_lt_add_iff_right]
  | succ q ih =>
    simp only [N]
    rw [show i + a + 1 = i + 1 + a by omega, show i + a + q + 1 = i + q + 1 + a by omega, show i + a + q + 2 = i + q + 2 + a by omega, ih, ih, hk, hk, hk, hk]
    congr 2 <;> ring

/-- The periodised spline. -/
def wrapped (K : Type*) [Field K] [LinearOrder K] (n q i : Nat) (x : K) : K := N (periodicKnot K n q) q i x + N (periodicKnot K n q) q (n + i) x

theorem wrapped_eq {n q i : Nat} (h : q ≤ n) (hn : 0 < n) (hs : n ≤ 49975) (hi : i < n) {x : K} (hx : x < 1) :
    (SplineBasis.mk n q "periodic" (periodicList K n q)).evaluate x (i : Int) = wrapped K n q i x := by
  rw [eval_periodic n q h hn hs x i hi]
  unfold wrapped
  split
  · rfl
  · rw [N_eq_zero_of_lt (strictMono_periodicKnot n q hn).monotone (i := n + i), add_zero]
    refine lt_of_lt_of_le hx ?_
    rw [periodicKnot_add n q i hn]
    have := periodicKnot_nonneg (K := K) n q i (by omega)
    linarith

theorem wrapped_shift {n q i m : Nat} (h : q ≤ n) (hn : 0 < n) (hi : i < n) (hm : m < n) {x x' : K} (h0 : 0 ≤ x) (h1 : x < 1) (h0' : 0 ≤ x') (h1' : x' < 1)
    (hx : x' = x + (m : K) / n ∨ x' = x + (m : K) / n - 1) : wrapped K n q ((i + m) % n) x' = wrapped K n q i x := by
  have hn' : (0 : K) < n := by exact_mod_cast hn
  have mono := (strictMono_periodicKnot (K := K) n q hn).monotone
  have kn : ∀ k, (n : K) * periodicKnot K n q k = k - q := fun k => by unfold periodicKnot; field_simp
  have hq : (q : K) ≤ n := by exact_mod_cast h
  have hi' : (i : K) + 1 ≤ n := by exact_mod_cast hi
  have key : ∀ j : Nat, N (periodicKnot K n q) q (j + m) (x + (m : K) / n) = N (periodicKnot K n q) q j x := fun j => N_periodic_shift hn q m q j x
  have nn : ((n : K) / n) = 1 := div_self hn'.ne'
  have key1 : ∀ (j : Nat) (y : K), N (periodicKnot K n q) q (j + n) (y + 1) = N (periodicKnot K n q) q j y := fun j y => by
    have := N_periodic_shift hn q n q j y
    rwa [nn] at this
  have zlt : ∀ (j : Nat) (y : K), (n : K) * y < j - q → N (periodicKnot K n q) q j y = 0 := fun j y hy => by
    refine N_eq_zero_of_lt mono ?_
    rw [← kn] at hy
    exact lt_of_mul_lt_mul_left hy hn'.le
  have zge : ∀ (j : Nat) (y : K), (j : K) + 1 ≤ n * y → N (periodicKnot K n q) q j y = 0 := fun j y hy => by
    refine N_eq_zero_of_ge mono ?_
    have : (n : K) * periodicKnot K n q (j + q + 1) ≤ n * y := by rw [kn]; push_cast; linarith
    exact le_of_mul_le_mul_left this hn'
  have nx0 : 0 ≤ (n : K) * x := mul_nonneg hn'.le h0
  have nx1 : (n : K) * x < n := by have := mul_lt_mul_of_pos_left h1 hn'; rwa [mul_one] at this
  have nx0' : 0 ≤ (n : K) * x' := mul_nonneg hn'.le h0'
  have nx1' : (n : K) * x' < n := by have := mul_lt_mul_of_pos_left h1' hn'; rwa [mul_one] at this
  have nm : (n : K) * (m / n) = m := by field_simp
  unfold wrapped
  by_cases hv : i + m < n
  · have hv' : (i : K) + m + 1 ≤ n := by exact_mod_cast hv
    rw [Nat.mod_eq_of_lt hv]
    rcases hx with rfl | hx
    · rw [show n + (i + m) = (n + i) + m by omega, key, key]
    · -- the point wraps, the index does not
      have e1 : N (periodicKnot K n q) q (n + (i + m)) x' = 0 := by
        apply zlt
        push_cast
        have : (n : K) * x' = n * x + m - n := by rw [hx, mul_sub, mul_add, nm, mul_one]
        rw [this]; linarith
      have e2 : N (periodicKnot K n q) q i x = 0 := by
        apply zge
        have : (n : K) * x' = n * x + m - n := by rw [hx, mul_sub, mul_add, nm, mul_one]
        linarith
      rw [e1, e2, add_zero, zero_add, ← key1, show x' + 1 = x + (m : K) / n by rw [hx]; ring, ← key (n + i)]
      congr 1; omega
  · have hv' : (n : K) ≤ i + m := by exact_mod_cast Nat.le_of_not_lt hv
    have ev : (i + m) % n = i + m - n := by
      rw [Nat.mod_eq_sub_mod (by omega), Nat.mod_eq_of_lt (by omega)]
    rw [ev, show n + (i + m - n) = i + m by omega]
    rcases hx with hx | hx
    · have e1 : N (periodicKnot K n q) q (i + m - n) x' = 0 := by
        apply zge
        have : (n : K) * x' = n * x + m := by rw [hx, mul_add, nm]
        rw [this, Nat.cast_sub (by omega)]
        push_cast
        linarith
      have e2 : N (periodicKnot K n q) q (n + i) x = 0 := by
        apply zlt
        have : (n : K) * x' = n * x + m := by rw [hx, mul_add, nm]
        push_cast
        linarith
      rw [e1, e2, zero_add, add_zero, hx, key]
    · have ex : x = x' + 1 - (m : K) / n := by rw [hx]; ring
      have a : N (periodicKnot K n q) q (i + m - n) x' = N (periodicKnot K n q) q i x := by
        rw [← key1, show i + m - n + n = i + m by omega, ← key, show x + (m : K) / n = x' + 1 by rw [hx]; ring]
      have b : N (periodicKnot K n q) q (i + m) x' = N (periodicKnot K n q) q (n + i) x := by
        rw [← key1, ← key (n + i), show x + (m : K) / n = x' + 1 by rw [hx]; ring]
        congr 1; omega
      rw [a, b]

/-- A periodic basis: shifting point and index by `m` cells changes nothing. -/
theorem periodic_eval_shift {n p m : Nat} (hn : 1 ≤ n) (h : p < n ∨ p = 1) (hfine : n ≤ 49975) (hm : m < n) {s : SplineBasis K} (hs : SplineBasis.mk? n p "periodic" = .ok s) {x x' : K}
    (h0 : 0 ≤ x) (h1 : x < 1) (h0' : 0 ≤ x') (h1' : x' < 1) (hx : x' = x + (m : K) / n ∨ x' = x + (m : K) / n - 1) {i : Nat} (hi : i < n) :
    s.evaluate x' (((i + m) % n : Nat) : Int) = s.evaluate x (i : Int) := by
  rw [of_mk?_periodic h hs, wrapped_eq (by omega) hn hfine (Nat.mod_lt _ (by omega)) h1', wrapped_eq (by omega) hn hfine hi h1]
  exact wrapped_shift (by omega) hn hi hm h0 h1 h0' h1' hx

theorem periodic_deriv_eq {n p : Nat} (hn : 1 ≤ n) (hp : 1 ≤ p) (h : p < n ∨ p = 1) (hfine : n ≤ 49975) {s : SplineBasis K} (hs : SplineBasis.mk? n p "periodic" = .ok s)
    {d : DerivativeSpline K} (hd : DerivativeSpline.mk? s = .ok d) {x : K} (h1 : x < 1) {i : Nat} (hi : i < n) : d.evaluate x i = n * wrapped K n (p - 1) i x := by
  have hp' : (p : K) ≠ 0 := by exact_mod_cast (by omega : p ≠ 0)
  have hn' : (n : K) ≠ 0 := by exact_mod_cast (by omega : n ≠ 0)
  rw [of_mk?_periodic h hs, mk?_deriv_periodic n p hp hn h] at hd
  rw [← Except.ok.inj hd]
  unfold DerivativeSpline.evaluate
  rw [if_neg (show ¬ ("periodic" = "clamped") by decide), if_pos rfl]
  have hmod : ((i : Int) + (n : Int)) % (n : Int) = (i : Int) := by
    rw [Int.add_emod_right]; exact Int.emod_eq_of_lt (by omega) (by omega)
  simp only [hmod]
  have e1 : ((i : Int) + ((p - 1 : Nat) : Int) + 1) = ((i + p : Nat) : Int) := by omega
  rw [e1, get_periodicList n (p-1) (by omega) hn _ (by omega), get_periodicList n (p-1) (by omega) hn _ (by omega), wrapped_eq (by omega) hn hfine hi h1]
  have : periodicKnot K n (p - 1) (i + p) - periodicKnot K n (p-1) i = p / n := by
    unfold periodicKnot; rw [Nat.cast_sub hp]; push_cast; field_simp; ring
  rw [this, Nat.cast_sub hp]
  push_cast
  rw [sub_add_cancel]
  field_simp

theorem periodic_deriv_shift {n p m : Nat} (hn : 1 ≤ n) (hp : 1 ≤ p) (h : p < n ∨ p = 1) (hfine : n ≤ 49975) (hm : m < n) {s : SplineBasis K}
    (hs : SplineBasis.mk? n p "periodic" = .ok s) {d : DerivativeSpline K} (hd : DerivativeSpline.mk? s = .ok d) {x x' : K}
    (h0 : 0 ≤ x) (h1 : x < 1) (h0' : 0 ≤ x') (h1' : x' < 1) (hx : x' = x + (m : K) / n ∨ x' = x + (m : K) / n - 1) {i : Nat} (hi : i < n) :
    d.evaluate x' (((i + m) % n : Nat) : Int) = d.evaluate x (i : Int) := by
  rw [periodic_deriv_eq hn hp h hfine hs hd h1' (Nat.mod_lt _ (by omega)), periodic_deriv_eq hn hp h hfine hs hd h1 hi,
    wrapped_shift (by omega) hn hi hm h0 h1 h0' h1' hx]

/-- The composite rule on the uniform grid: point and weight number `e * k + l` are those of the reference rule in cell `e`. -/
theorem composite_uniform {n k : Nat} (hn : 1 ≤ n) (h1 : 1 ≤ k) (h2 : k ≤ 10) {e l : Nat} (he : e < n) (hl : l < k) :
    ∃ (x w : Rat), (compositeQuad (Jax.linspace01 K (n + 1)) k).1[e * k + l]? = some ((((x : K) + 1) / 2 + e) / n) ∧
      (compositeQuad (Jax.linspace01 K (n + 1)) k).2[e * k + l]? = some ((w : K) / 2 / n) ∧ (nodesAndWeights k).1[l]? = some x ∧ (nodesAndWeights k).2[l]? = some w := by
  have hlen : (nodesAndWeights k).1.length = k ∧ (nodesAndWeights k).2.length = k := by
    have := length_rescale (K := K) h1 h2 0 1
    simpa [rescale] using this
  have hn' : (n : K) ≠ 0 := by exact_mod_cast (by omega : n ≠ 0)
  obtain ⟨x, hx⟩ : ∃ x, (nodesAndWeights k).1[l]? = some x := ⟨_, List.getElem?_eq_getElem (by omega)⟩
  obtain ⟨w, hw⟩ : ∃ w, (nodesAndWeights k).2[l]? = some w := ⟨_, List.getElem?_eq_getElem (by omega)⟩
  refine ⟨x, w, ?_, ?_, hx, hw⟩
  all_goals
    unfold compositeQuad
    simp only []
    rw [els_eq]
  · rw [getElem?_flatMap_block _ _ k (fun a _ => (length_rescale h1 h2 _ _).1) e l (by simp [length_linspace01]; omega) hl]
    simp only [rescale, List.getElem?_map, hx, Option.map_some, List.getElem_zip, List.getElem_tail, getElem_linspace01, Nat.add_sub_cancel]
    congr 1
    push_cast
    field_simp
    ring
  · rw [getElem?_flatMap_block _ _ k (fun a _ => (length_rescale h1 h2 _ _).2) e l (by simp [length_linspace01]; omega) hl]
    simp only [rescale, List.getElem?_map, hw, Option.map_some, List.getElem_zip, List.getElem_tail, getElem_linspace01, Nat.add_sub_cancel]
    congr 1
    push_cast
    field_simp
    ring

end Generic
end Mrx
