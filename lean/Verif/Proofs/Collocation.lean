import Verif.Proofs.LocalIndep
import Verif.Proofs.LowQuad
import Verif.Proofs.GetterDeriv

/-! # One-dimensional bases are unisolvent at their quadrature points -/

set_option linter.unusedSectionVars false

namespace Mrx
open Finset Jax Quad Props Spec

/-- The only combination of the `n` functions `b · i` vanishing at all points of `xs` is the trivial one. -/
def Unisolvent (n : Nat) (b : ℝ → Nat → ℝ) (xs : List ℝ) : Prop :=
  ∀ c : Nat → ℝ, (∀ x ∈ xs, ∑ i ∈ range n, c i * b x i = 0) → ∀ i < n, c i = 0

theorem composite_points (T : List ℝ) (hT : T.Pairwise (· < ·)) (k p : Nat) (h1 : p + 1 ≤ k) (h2 : k ≤ 10)
    (e : Nat) (he : e + 1 < T.length) :
    ∃ pts : Fin (p + 1) → ℝ, Function.Injective pts ∧
      (∀ a, T[e] < pts a ∧ pts a < T[e+1]) ∧ ∀ a, pts a ∈ (compositeQuad T k).1 := by
  obtain ⟨hl, _, hin, _, hpw⟩ := table_nodes k (List.mem_range.mpr (by omega)) (by omega)
  have hlt : T[e] < T[e+1] := List.pairwise_iff_getElem.mp hT e (e+1) (by omega) he (by omega)
  have hd : 0 < T[e+1] - T[e] := by linarith
  refine ⟨fun a => (((((nodesAndWeights k).1[a.1]'(by omega)) : Rat) : ℝ) + 1) / 2 * (T[e+1] - T[e]) + T[e], ?_, ?_, ?_⟩
  · intro a b hab
    by_contra hne
    have hab' : (((nodesAndWeights k).1[a.1]'(by omega) : Rat) : ℝ) = (((nodesAndWeights k).1[b.1]'(by omega) : Rat) : ℝ) := by
      simp only [add_left_inj, mul_eq_mul_right_iff, hd.ne', or_false] at hab
      linarith
    have hab'' := Rat.cast_injective (α := ℝ) hab'
    rcases Nat.lt_or_gt_of_ne (fun h => hne (Fin.ext h)) with h | h
    · exact absurd hab'' (List.pairwise_iff_getElem.mp hpw _ _ (by omega) (by omega) h).ne
    · exact absurd hab'' (List.pairwise_iff_getElem.mp hpw _ _ (by omega) (by omega) h).ne'
  · intro a
    obtain ⟨g1, g2⟩ := hin _ (List.getElem_mem (l := (nodesAndWeights k).1) (n := a.1) (by omega))
    have g1' : (-1 : ℝ) < (((nodesAndWeights k).1[a.1]'(by omega) : Rat) : ℝ) := by exact_mod_cast g1
    have g2' : (((nodesAndWeights k).1[a.1]'(by omega) : Rat) : ℝ) < 1 := by exact_mod_cast g2
    constructor
    · nlinarith
    · nlinarith
  · intro a
    rw [compositeQuad_eq]
    refine List.mem_flatMap.mpr ⟨(T[e], T[e+1]), ?_, ?_⟩
    · refine List.mem_iff_getElem.mpr ⟨e, by simp; omega, by simp⟩
    · simp only [rescale]
      exact List.mem_map.mpr ⟨_, List.getElem_mem _, rfl⟩

theorem clampedKnot_elem (n p e : Nat) (he : e ≤ n - p) (h : p < n) :
    clampedKnot ℝ n p (p + e) = (e : ℝ) / ((n - p : Nat) : ℝ) := by
  have hm : ((n - p : Nat) : ℝ) ≠ 0 := by exact_mod_cast (by omega : n - p ≠ 0)
  unfold clampedKnot
  by_cases h0 : e = 0
  · subst h0; simp
  · rw [if_neg (by omega)]
    split
    · rename_i hc
      obtain rfl : e = n - p := by omega
      rw [div_self hm]
    · rw [Nat.add_sub_cancel_left]

/-- Unisolvence for combinations written over the clamped knots. -/
theorem clamped_core (n p r k : Nat) (hr : r ≤ p) (h : p < n) (h1 : r + 1 ≤ k) (h2 : k ≤ 10) (c : Nat → ℝ)
    (hc : ∀ x ∈ (compositeQuad (linspace01 ℝ (n - p + 1)) k).1, ∑ i ∈ range n, c i * N (clampedKnot ℝ n p) r i x = 0) :
    ∀ i < n, p - r ≤ i → c i = 0 := by
  intro i hi hpr
  obtain ⟨pts, hinj, hin, hmem⟩ := composite_points (linspace01 ℝ (n - p + 1)) (linspace01_pairwise _) k r h1 h2
    (max i p - p) (by rw [length_linspace01]; omega)
  simp only [getElem_linspace01, Nat.add_sub_cancel] at hin
  have e1 : p + (max i p - p) = max i p := by omega
  have k1 := clampedKnot_elem n p (max i p - p) (by omega) h
  have k2 := clampedKnot_elem n p (max i p - p + 1) (by omega) h
  rw [e1] at k1
  rw [show p + (max i p - p + 1) = max i p + 1 by omega] at k2
  refine N_unisolvent (monotone_clampedKnot n p h) (e := max i p) (m := n) (by omega) r (by omega) c pts hinj ?_
    (fun a => hc _ (hmem a)) i (by omega) (by omega)
  intro a
  rw [k1, k2]
  exact hin a

theorem periodic_core (n p r k : Nat) (hr : r ≤ p) (hn : 1 ≤ n) (h1 : r + 1 ≤ k) (h2 : k ≤ 10) (c : Nat → ℝ)
    (hc : ∀ x ∈ (compositeQuad (linspace01 ℝ (n + 1)) k).1, ∑ i ∈ range (n + p), c i * N (periodicKnot ℝ n p) r i x = 0) :
    ∀ i, p - r ≤ i → i < n + (p - r) → c i = 0 := by
  intro i hpr hi
  obtain ⟨pts, hinj, hin, hmem⟩ := composite_points (linspace01 ℝ (n + 1)) (linspace01_pairwise _) k r h1 h2
    (i + r - p) (by rw [length_linspace01]; omega)
  simp only [getElem_linspace01, Nat.add_sub_cancel] at hin
  refine N_unisolvent (strictMono_periodicKnot n p (by omega)).monotone (e := i + r) (m := n + p) (by omega) r (by omega) c pts hinj ?_
    (fun a => hc _ (hmem a)) i (by omega) (by omega)
  intro a
  have key : ∀ t : Nat, p ≤ t → periodicKnot ℝ n p t = ((t - p : Nat) : ℝ) / (n : ℝ) := by
    intro t ht
    unfold periodicKnot
    rw [Nat.cast_sub ht]
  rw [key _ (by omega), key _ (by omega), show i + r + 1 - p = i + r - p + 1 by omega]
  exact hin a

/-- Unisolvence over the clamped knots with `p` points per element, degree at least two, at least two elements. -/
theorem clamped_core_low (n p k : Nat) (hp : 2 ≤ p) (hel : 2 ≤ n - p) (h1 : p ≤ k) (h2 : k ≤ 10) (c : Nat → ℝ)
    (hc : ∀ x ∈ (compositeQuad (linspace01 ℝ (n - p + 1)) k).1, ∑ i ∈ range n, c i * N (clampedKnot ℝ n p) p i x = 0) :
    ∀ i < n, c i = 0 := by
  obtain ⟨r, rfl⟩ : ∃ r, p = r + 1 := ⟨p - 1, by omega⟩
  have h : r + 1 < n := by omega
  intro i hi
  obtain ⟨e, he⟩ : ∃ e, e = min (max i (r + 1)) (n - 2) := ⟨_, rfl⟩
  have pick : ∀ f, r + 1 ≤ f → f < n → ∃ pts : Fin (r + 1) → ℝ, Function.Injective pts ∧
      (∀ a, clampedKnot ℝ n (r + 1) f < pts a ∧ pts a < clampedKnot ℝ n (r + 1) (f + 1)) ∧
      ∀ a, ∑ i ∈ range n, c i * N (clampedKnot ℝ n (r + 1)) (r + 1) i (pts a) = 0 := by
    intro f f1 f2
    obtain ⟨pts, hinj, hin, hmem⟩ := composite_points (linspace01 ℝ (n - (r + 1) + 1)) (linspace01_pairwise _) k r h1 h2
      (f - (r + 1)) (by rw [length_linspace01]; omega)
    simp only [getElem_linspace01, Nat.add_sub_cancel] at hin
    have k1 := clampedKnot_elem n (r + 1) (f - (r + 1)) (by omega) h
    have k2 := clampedKnot_elem n (r + 1) (f - (r + 1) + 1) (by omega) h
    rw [show r + 1 + (f - (r + 1)) = f by omega] at k1
    rw [show r + 1 + (f - (r + 1) + 1) = f + 1 by omega] at k2
    refine ⟨pts, hinj, fun a => ?_, fun a => hc _ (hmem a)⟩
    rw [k1, k2]
    exact hin a
  obtain ⟨xs, x1, x2, x3⟩ := pick e (by omega) (by omega)
  obtain ⟨ys, y1, y2, y3⟩ := pick (e + 1) (by omega) (by omega)
  exact N_unisolvent_pair (monotone_clampedKnot n (r + 1) h) (e := e) (m := n) (by omega) hp (by omega) c xs ys x1 y1 x2 y2 x3 y3 i
    (by omega) (by omega)

/-- The same over the periodic knots. -/
theorem periodic_core_low (n p k : Nat) (hp : 2 ≤ p) (hn : 2 ≤ n) (h1 : p ≤ k) (h2 : k ≤ 10) (c : Nat → ℝ)
    (hc : ∀ x ∈ (compositeQuad (linspace01 ℝ (n + 1)) k).1, ∑ i ∈ range (n + p), c i * N (periodicKnot ℝ n p) p i x = 0) :
    ∀ i < n, c i = 0 := by
  obtain ⟨r, rfl⟩ : ∃ r, p = r + 1 := ⟨p - 1, by omega⟩
  intro i hi
  obtain ⟨e, he⟩ : ∃ e, e = min (i + (r + 1)) (n + (r + 1) - 2) := ⟨_, rfl⟩
  have key : ∀ t : Nat, r + 1 ≤ t → periodicKnot ℝ n (r + 1) t = ((t - (r + 1) : Nat) : ℝ) / (n : ℝ) := by
    intro t ht
    unfold periodicKnot
    rw [Nat.cast_sub ht]
  have pick : ∀ f, r + 1 ≤ f → f < n + (r + 1) → ∃ pts : Fin (r + 1) → ℝ, Function.Injective pts ∧
      (∀ a, periodicKnot ℝ n (r + 1) f < pts a ∧ pts a < periodicKnot ℝ n (r + 1) (f + 1)) ∧
      ∀ a, ∑ i ∈ range (n + (r + 1)), c i * N (periodicKnot ℝ n (r + 1)) (r + 1) i (pts a) = 0 := by
    intro f f1 f2
    obtain ⟨pts, hinj, hin, hmem⟩ := composite_points (linspace01 ℝ (n + 1)) (linspace01_pairwise _) k r h1 h2
      (f - (r + 1)) (by rw [length_linspace01]; omega)
    simp only [getElem_linspace01, Nat.add_sub_cancel] at hin
    refine ⟨pts, hinj, fun a => ?_, fun a => hc _ (hmem a)⟩
    rw [key _ (by omega), key _ (by omega), show f + 1 - (r + 1) = f - (r + 1) + 1 by omega]
    exact hin a
  obtain ⟨xs, x1, x2, x3⟩ := pick e (by omega) (by omega)
  obtain ⟨ys, y1, y2, y3⟩ := pick (e + 1) (by omega) (by omega)
  exact N_unisolvent_pair (strictMono_periodicKnot n (r + 1) (by omega)).monotone (e := e) (m := n + (r + 1)) (by omega) hp (by omega) c
    xs ys x1 y1 x2 y2 x3 y3 i (by omega) (by omega)

theorem composite_lt_one {m k : Nat} (hm : 1 ≤ m) (h1 : 1 ≤ k) (h2 : k ≤ 10) {x : ℝ}
    (hx : x ∈ (compositeQuad (linspace01 ℝ (m + 1)) k).1) : x < 1 := by
  obtain ⟨xs, ws, _, e2, _, _, hin, _⟩ := C11_select_rule (K := ℝ) (m + 1) 1 (le_refl _) "clamped" m
    (Or.inl ⟨rfl, by omega, by omega⟩) _ (mk?_clamped (m + 1) 1 (Or.inl (by omega))) k h1 h2
  rw [← e2] at hx
  exact (hin x hx).2

section dirs
variable {n p k : Nat} {s : SplineBasis ℝ} {d : DerivativeSpline ℝ} {xw : List ℝ × List ℝ}

theorem unisolvent_clamped (hp : 1 ≤ p) (hpn : p < n) (hfine : n - p ≤ 99900) (h1 : p + 1 ≤ k ∨ (k = p ∧ 2 ≤ p ∧ 2 ≤ n - p)) (h2 : k ≤ 10)
    (hs : SplineBasis.mk? n p "clamped" = .ok s) (hq : selectQuadrature s k = .ok xw) :
    Unisolvent n (fun x i => s.evaluate x i) xw.1 := by
  obtain ⟨xs, ws, e1, e2, _, _, hin, _⟩ := C11_select_rule n p hp "clamped" (n - p)
    (Or.inl ⟨rfl, hpn, rfl⟩) s hs k (by omega) h2
  rw [hq] at e1
  obtain rfl := Except.ok.inj e1
  intro c hc i hi
  have hall : ∀ x ∈ (compositeQuad (linspace01 ℝ (n - p + 1)) k).1, ∑ i ∈ range n, c i * N (clampedKnot ℝ n p) p i x = 0 := ?_
  · rcases h1 with h1 | h1
    · exact clamped_core n p p k (le_refl _) hpn h1 h2 c hall i hi (by omega)
    · exact clamped_core_low n p k h1.2.1 h1.2.2 (by omega) h2 c hall i hi
  intro x hx
  rw [← e2] at hx
  rw [← hc x hx]
  refine Finset.sum_congr rfl fun j hj => ?_
  beta_reduce
  rw [C01_clamped_is_cox_de_boor n p hpn hfine s hs x (hin x hx).2.ne j (mem_range.mp hj)]

theorem unisolvent_clamped_deriv (hp : 1 ≤ p) (hpn : p < n) (hfine : n - p ≤ 99900) (h1 : p ≤ k) (h2 : k ≤ 10)
    (hs : SplineBasis.mk? n p "clamped" = .ok s) (hd : DerivativeSpline.mk? s = .ok d)
    (hq : selectQuadrature s k = .ok xw) :
    Unisolvent (n - 1) (fun x i => d.evaluate x i) xw.1 := by
  obtain ⟨xs, ws, e1, e2, _, _, hin, _⟩ := C11_select_rule n p hp "clamped" (n - p)
    (Or.inl ⟨rfl, hpn, rfl⟩) s hs k (by omega) h2
  rw [hq] at e1
  obtain rfl := Except.ok.inj e1
  intro c hc i hi
  have hpos : ∀ i < n - 1, (0 : ℝ) < clampedKnot ℝ n p (i + p + 1) - clampedKnot ℝ n p (i + 1) := by
    intro i hi
    rcases Nat.lt_or_ge (i + 1) p with h | h
    · rw [clampedKnot_zero n p (i+1) (by omega)]
      have := clampedKnot_pos (K := ℝ) n p (i + p + 1) (by omega) hpn
      linarith
    · have a1 := monotone_clampedKnot (K := ℝ) n p hpn (show i + 2 ≤ i + p + 1 by omega)
      have a2 : clampedKnot ℝ n p (i + 1) < clampedKnot ℝ n p (i + 2) := by
        have k1 := clampedKnot_elem n p (i + 1 - p) (by omega) hpn
        have k2 := clampedKnot_elem n p (i + 2 - p) (by omega) hpn
        rw [show p + (i + 1 - p) = i + 1 by omega] at k1
        rw [show p + (i + 2 - p) = i + 2 by omega] at k2
        rw [k1, k2]
        have hm : (0 : ℝ) < ((n - p : Nat) : ℝ) := by exact_mod_cast (by omega : 0 < n - p)
        rw [div_lt_div_iff_of_pos_right hm]
        exact_mod_cast (by omega : i + 1 - p < i + 2 - p)
      linarith
  let c' : Nat → ℝ := fun j => if j = 0 then 0 else
    c (j - 1) * (p : ℝ) / (clampedKnot ℝ n p (j + p) - clampedKnot ℝ n p j)
  have := clamped_core n p (p - 1) k (by omega) hpn (by omega) h2 c' (fun x hx => ?_) (i + 1) (by omega) (by omega)
  · simp only [c', Nat.add_eq_zero_iff, one_ne_zero, and_false, if_false, Nat.add_sub_cancel] at this
    have hp0 := hpos i hi
    rw [show i + 1 + p = i + p + 1 by omega, div_eq_zero_iff] at this
    rcases this with h | h
    · rcases mul_eq_zero.mp h with h | h
      · exact h
      · exact absurd h (by exact_mod_cast (by omega : p ≠ 0))
    · exact absurd h hp0.ne'
  · rw [← e2] at hx
    rw [← hc x hx]
    obtain ⟨n', rfl⟩ : ∃ n', n = n' + 1 := ⟨n - 1, by omega⟩
    rw [Finset.sum_range_succ', Nat.add_sub_cancel]
    simp only [c', if_true, zero_mul, add_zero, Nat.add_eq_zero_iff, one_ne_zero, and_false, if_false, Nat.add_sub_cancel]
    refine Finset.sum_congr rfl fun j hj => ?_
    rw [C08_clamped_derivative_values (n' + 1) p hp hpn hfine s hs d hd x (hin x hx).2.ne j,
      if_pos (by have := mem_range.mp hj; omega), show j + 1 + p = j + p + 1 by omega]
    ring

theorem sum_wrap' (n p : Nat) (h : p ≤ n) (c : Nat → ℝ) (f : Nat → ℝ) :
    ∑ i ∈ range n, c i * (if i < p then f i + f (n + i) else f i) = ∑ i ∈ range (n + p), c (i % n) * f i := by
  rw [← sum_wrap n p h fun i => c (i % n) * f i]
  refine Finset.sum_congr rfl fun i hi => ?_
  have hi := mem_range.mp hi
  rw [Nat.mod_eq_of_lt hi, Nat.add_mod_left, Nat.mod_eq_of_lt hi]
  split <;> ring

theorem unisolvent_periodic (hp : 1 ≤ p) (hn : 1 ≤ n) (hacc : p < n ∨ p = 1) (hfine : n ≤ 49975) (h1 : p + 1 ≤ k ∨ (k = p ∧ 2 ≤ p)) (h2 : k ≤ 10)
    (hs : SplineBasis.mk? n p "periodic" = .ok s) (hq : selectQuadrature s k = .ok xw) :
    Unisolvent n (fun x i => s.evaluate x i) xw.1 := by
  obtain ⟨xs, ws, e1, e2, _, _, hin, _⟩ := C11_select_rule n p hp "periodic" n
    (Or.inr ⟨rfl, hn, hacc, rfl⟩) s hs k (by omega) h2
  rw [hq] at e1
  obtain rfl := Except.ok.inj e1
  intro c hc i hi
  have hall : ∀ x ∈ (compositeQuad (linspace01 ℝ (n + 1)) k).1,
      ∑ i ∈ range (n + p), c (i % n) * N (periodicKnot ℝ n p) p i x = 0 := ?_
  · have : c (i % n) = 0 := by
      rcases h1 with h1 | h1
      · exact periodic_core n p p k (le_refl _) hn h1 h2 (fun j => c (j % n)) hall i (by omega) (by omega)
      · exact periodic_core_low n p k h1.2 (by omega) (by omega) h2 (fun j => c (j % n)) hall i hi
    rwa [Nat.mod_eq_of_lt hi] at this
  · intro x hx
    rw [← e2] at hx
    rw [← hc x hx, ← sum_wrap' n p (by omega) c]
    refine Finset.sum_congr rfl fun j hj => ?_
    beta_reduce
    rw [of_mk?_periodic hacc hs, eval_periodic n p (by omega) (by omega) hfine x j (mem_range.mp hj)]

theorem unisolvent_periodic_deriv (hp : 1 ≤ p) (hn : 1 ≤ n) (hacc : p < n ∨ p = 1) (hfine : n ≤ 49975) (h1 : p ≤ k) (h2 : k ≤ 10)
    (hs : SplineBasis.mk? n p "periodic" = .ok s) (hd : DerivativeSpline.mk? s = .ok d)
    (hq : selectQuadrature s k = .ok xw) :
    Unisolvent n (fun x i => d.evaluate x i) xw.1 := by
  obtain ⟨xs, ws, e1, e2, _, _, hin, _⟩ := C11_select_rule n p hp "periodic" n
    (Or.inr ⟨rfl, hn, hacc, rfl⟩) s hs k (by omega) h2
  rw [hq] at e1
  obtain rfl := Except.ok.inj e1
  intro c hc i hi
  have hn0 : (n : ℝ) ≠ 0 := by exact_mod_cast (by omega : n ≠ 0)
  have := periodic_core n p (p - 1) k (by omega) hn (by omega) h2
    (fun j => if j = 0 then 0 else c ((j - 1) % n) * (n : ℝ)) (fun x hx => ?_) (i + 1) (by omega) (by omega)
  · simpa [Nat.mod_eq_of_lt hi, hn0] using this
  · rw [← e2] at hx
    refine Eq.trans ?_ (hc x hx)
    obtain ⟨p', rfl⟩ : ∃ p', p = p' + 1 := ⟨p - 1, by omega⟩
    rw [← add_assoc, Finset.sum_range_succ', if_pos rfl, zero_mul, add_zero]
    simp only [Nat.add_eq_zero_iff, one_ne_zero, and_false, if_false, Nat.add_sub_cancel]
    have hw := sum_wrap' n p' (by omega) (fun i => c i * (n : ℝ)) (fun i => N (periodicKnot ℝ n (p' + 1)) p' (i + 1) x)
    rw [← hw]
    refine Finset.sum_congr rfl fun j hj => ?_
    rw [periodic_derivative_values n (p' + 1) hp hn hacc hfine s hs d hd x j (mem_range.mp hj)]
    simp only [Nat.add_sub_cancel]
    ring

theorem unisolvent_one {b : ℝ → Nat → ℝ} {xs : List ℝ} (hb : ∀ x, b x 0 = 1) (hx : xs ≠ []) : Unisolvent 1 b xs := by
  intro c hc i hi
  obtain rfl : i = 0 := by omega
  obtain ⟨x, hx⟩ := List.exists_mem_of_ne_nil _ hx
  have := hc x hx
  simpa [hb] using this

end dirs
end Mrx
