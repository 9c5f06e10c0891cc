import Verif.Proofs.SplineSpace
import Verif.Props.Splines
import Verif.Props.Splines2

/-!
# C86, C87: what the spline spaces are

The functions one can represent with the code's bases are exactly the splines of the specification
(`Verif/Spec/SplineSpace.lean`), they contain all polynomials of the degree, and refining the grid
never loses a function.
-/

set_option linter.unusedSectionVars false

namespace Mrx.Props
open Finset Mrx.Spec Polynomial

section generic
variable {K : Type*} [Field K] [LinearOrder K] [IsStrictOrderedRing K]

theorem marsden_eval (n p : Nat) (h : p < n) (hfine : n - p ≤ 99900) (x : K) (h0 : 0 ≤ x) (h1 : x ≤ 1) (y : K) :
    ∑ i ∈ range n, dualPoly (clampedKnot K n p) p i y * (SplineBasis.mk n p "clamped" (clampedList K n p)).evaluate x (i : Int) = (x - y) ^ p := by
  rw [sum_congr rfl fun i hi => by rw [eval_clamped n p h hfine x i (mem_range.mp hi)]]
  rcases h1.lt_or_eq with hx | rfl
  · have := marsden (monotone_clampedKnot (K := K) n p h) (p := p) (m := n) (x := x)
      (by rw [clampedKnot_zero n p p le_rfl]; exact h0) (by rw [clampedKnot_one n p n le_rfl h]; exact hx) y
    rw [← this]
    exact sum_congr rfl fun i _ => by rw [if_neg (by intro hc; exact hx.ne hc.2)]
  · rw [sum_eq_single (n - 1)]
    · rw [if_pos ⟨rfl, rfl⟩, mul_one]
      unfold dualPoly
      rw [prod_congr rfl fun l hl => by rw [clampedKnot_one n p (n - 1 + 1 + l) (by omega) h], prod_const, card_range]
    · intro i hi hne
      rw [if_neg (by tauto), N_clamped_at_one n p p i h (mem_range.mp hi), mul_zero]
    · intro hc; exact absurd (mem_range.mpr (by omega)) hc

/-- **C86** Marsden's identity, in terms of the object's own knots: the coefficients
`∏ (T[i+l] - y)`, `l = 1..p`, give `(x - y)^p` at every point of `[0,1]`, for every `y`. -/
theorem C86_marsden (n p : Nat) (h : p < n) (hfine : n - p ≤ 99900)
    (s : SplineBasis K) (hs : SplineBasis.mk? n p "clamped" = .ok s) (x : K) (h0 : 0 ≤ x) (h1 : x ≤ 1) (y : K) :
    ∑ i ∈ range n, (∏ l ∈ range p, (Jax.get s.T ((i + 1 + l : Nat) : Int) - y)) * s.evaluate x (i : Int) = (x - y) ^ p := by
  rw [of_mk?_clamped h hs, ← marsden_eval n p h hfine x h0 h1 y]
  refine sum_congr rfl fun i _ => ?_
  unfold dualPoly
  rw [prod_congr rfl fun l _ => by rw [get_clampedList n p h]]

/-- **C86** The identity map: with the Greville averages `(T[i+1] + ... + T[i+p]) / p` as
coefficients the basis reproduces `x`. -/
theorem C86_greville (n p : Nat) (hp : 1 ≤ p) (h : p < n) (hfine : n - p ≤ 99900)
    (s : SplineBasis K) (hs : SplineBasis.mk? n p "clamped" = .ok s) (x : K) (h0 : 0 ≤ x) (h1 : x ≤ 1) :
    ∑ i ∈ range n, ((∑ l ∈ range p, Jax.get s.T ((i + 1 + l : Nat) : Int)) / p) * s.evaluate x (i : Int) = x := by
  rw [of_mk?_clamped h hs]
  have := sym_of_marsden (fun y => marsden_eval n p h hfine x h0 h1 y) 1 hp
  have hp0 : (p : K) ≠ 0 := by exact_mod_cast (show p ≠ 0 by omega)
  rw [Nat.choose_one_right, pow_one] at this
  calc _ = (∑ i ∈ range n, knotSym (clampedKnot K n p) p i 1 * (SplineBasis.mk n p "clamped" (clampedList K n p)).evaluate x (i : Int)) / p := by
        rw [sum_div]
        refine sum_congr rfl fun i _ => ?_
        have : knotSym (clampedKnot K n p) p i 1 = ∑ l ∈ range p, Jax.get (clampedList K n p) ((i + 1 + l : Nat) : Int) := by
          unfold knotSym
          rw [powersetCard_one, sum_map]
          exact sum_congr rfl fun l _ => by rw [get_clampedList n p h]; simp
        rw [this]
        ring
    _ = x := by rw [this]; field_simp

end generic

/-- **C86** Every polynomial of degree at most `p` lies in the span of the basis. -/
theorem C86_polynomials (n p : Nat) (h : p < n) (hfine : n - p ≤ 99900)
    (s : SplineBasis ℝ) (hs : SplineBasis.mk? n p "clamped" = .ok s) (P : ℝ[X]) (hd : P.natDegree ≤ p) :
    ∃ c : Nat → ℝ, ∀ x, 0 ≤ x → x ≤ 1 → ∑ i ∈ range n, c i * s.evaluate x (i : Int) = P.eval x := by
  rw [of_mk?_clamped h hs]
  exact ⟨polyCoef (clampedKnot ℝ n p) p P, fun x h0 h1 => polyCoef_sum (fun y => marsden_eval n p h hfine x h0 h1 y) P hd⟩

/-! ## Knots of the elements -/

theorem clampedKnot_elem (n p j : Nat) (h : p < n) (hj : j ≤ n - p) : clampedKnot ℝ n p (p + j) = (j : ℝ) / ((n - p : Nat) : ℝ) := by
  have hM : ((n - p : Nat) : ℝ) ≠ 0 := by exact_mod_cast (show n - p ≠ 0 by omega)
  unfold clampedKnot
  split_ifs with h1 h2
  · have : j = 0 := by omega
    subst this; simp
  · have : j = n - p := by omega
    subst this; rw [div_self hM]
  · rw [show p + j - p = j by omega]

theorem periodicKnot_elem (n p j : Nat) : periodicKnot ℝ n p (p + j) = (j : ℝ) / (n : ℝ) := by
  unfold periodicKnot; push_cast; congr 1; ring

theorem elem_of (M : Nat) (hM : 0 < M) (x : ℝ) (h0 : 0 ≤ x) (h1 : x < 1) :
    ∃ j < M, (j : ℝ) / M ≤ x ∧ x < ((j : ℝ) + 1) / M := by
  have hM' : (0 : ℝ) < M := by exact_mod_cast hM
  refine ⟨⌊x * M⌋₊, ?_, ?_, ?_⟩
  · rw [Nat.floor_lt (by positivity)]
    nlinarith
  · rw [div_le_iff₀ hM']; exact Nat.floor_le (by positivity)
  · rw [lt_div_iff₀ hM']; exact Nat.lt_floor_add_one _

/-- The two directions for the textbook functions over the clamped knots of `(n,p)`, on `[0,1)`. -/
theorem comb_pieces_clamped (n p : Nat) (h : p < n) (c : Nat → ℝ) (f : ℝ → ℝ)
    (hf : ∀ x, 0 ≤ x → x < 1 → f x = ∑ i ∈ range n, c i * N (clampedKnot ℝ n p) p i x) :
    PiecesOf p (n - p) f (fun j => combPiece (clampedKnot ℝ n p) p n c (p + j)) ∧
      Smooth p (n - p) (fun j => combPiece (clampedKnot ℝ n p) p n c (p + j)) := by
  have hm := monotone_clampedKnot (K := ℝ) n p h
  have hM : (0 : ℝ) < ((n - p : Nat) : ℝ) := by exact_mod_cast (show 0 < n - p by omega)
  have lt : ∀ j, j < n - p → clampedKnot ℝ n p (p + j) < clampedKnot ℝ n p (p + j + 1) := by
    intro j hj
    rw [clampedKnot_elem n p j h (by omega), show p + j + 1 = p + (j + 1) by omega, clampedKnot_elem n p (j + 1) h (by omega)]
    push_cast
    gcongr
    linarith
  refine ⟨⟨fun j _ => combPiece_natDegree _ _ _ _ _, ?_⟩, ?_⟩
  · intro j hj x h1 h2
    have a1 := clampedKnot_elem n p j h (by omega)
    have a2 := clampedKnot_elem n p (j + 1) h (by omega)
    push_cast at a2
    have hx1 : x < 1 := lt_of_lt_of_le h2 (by rw [div_le_one hM]; exact_mod_cast (show j + 1 ≤ n - p by omega))
    have hx0 : 0 ≤ x := le_trans (by positivity) h1
    beta_reduce
    rw [combPiece_eval hm p n c (p + j) (by rw [a1]; exact h1) (by rw [show p + j + 1 = p + (j + 1) by omega, a2]; exact h2), hf x hx0 hx1]
  · intro j hj
    have a2 := clampedKnot_elem n p (j + 1) h (by omega)
    push_cast at a2
    have := combPiece_joined hm p n c (p + j) (lt j (by omega)) (lt (j + 1) (by omega))
    rw [show p + j + 1 = p + (j + 1) by omega, a2] at this
    exact this

theorem pieces_comb_clamped (n p : Nat) (h : p < n) (P : Nat → ℝ[X]) (f : ℝ → ℝ) (hP : PiecesOf p (n - p) f P) (hS : Smooth p (n - p) P) :
    ∃ c : Nat → ℝ, (∀ j < n - p, P j = combPiece (clampedKnot ℝ n p) p n c (p + j)) ∧
      ∀ x, 0 ≤ x → x < 1 → f x = ∑ i ∈ range n, c i * N (clampedKnot ℝ n p) p i x := by
  have hm := monotone_clampedKnot (K := ℝ) n p h
  have hM : (0 : ℝ) < ((n - p : Nat) : ℝ) := by exact_mod_cast (show 0 < n - p by omega)
  obtain ⟨c, hc⟩ := pieces_are_comb hm (p := p) (m := n) h (by
      intro e h1 h2
      obtain ⟨j, rfl⟩ : ∃ j, e = p + j := ⟨e - p, by omega⟩
      rw [clampedKnot_elem n p j h (by omega), show p + j + 1 = p + (j + 1) by omega, clampedKnot_elem n p (j + 1) h (by omega)]
      push_cast
      gcongr
      linarith) (fun e => P (e - p))
    (by intro e h1 h2; exact hP.degree (e - p) (by omega))
    (by
      intro e h1 h2
      obtain ⟨j, rfl⟩ : ∃ j, e = p + j := ⟨e - p, by omega⟩
      have a2 := clampedKnot_elem n p (j + 1) h (by omega)
      push_cast at a2
      rw [show p + j + 1 = p + (j + 1) by omega, a2, show p + j - p = j by omega, show p + (j + 1) - p = j + 1 by omega]
      exact hS j (by omega))
  refine ⟨c, ?_, ?_⟩
  · intro j hj
    have := hc (p + j) (by omega) (by omega)
    rwa [show p + j - p = j by omega] at this
  · intro x h0 h1
    obtain ⟨j, hj, e1, e2⟩ := elem_of (n - p) (by omega) x h0 h1
    have a1 := clampedKnot_elem n p j h (by omega)
    have a2 := clampedKnot_elem n p (j + 1) h (by omega)
    push_cast at a2
    have := hc (p + j) (by omega) (by omega)
    rw [show p + j - p = j by omega] at this
    rw [hP.inside j hj x e1 e2, this, combPiece_eval hm p n c (p + j) (by rw [a1]; exact e1) (by rw [show p + j + 1 = p + (j + 1) by omega, a2]; exact e2)]

theorem combPiece_at_one (n p : Nat) (h : p < n) (c : Nat → ℝ) : (combPiece (clampedKnot ℝ n p) p n c (n - 1)).eval 1 = c (n - 1) := by
  have e1 : clampedKnot ℝ n p (n - 1 + 1) = 1 := clampedKnot_one n p _ (by omega) h
  have key := NP_right_end (clampedKnot ℝ n p) (n - 1) p (by rw [e1]; exact clampedKnot_lt_one n p _ (by omega) h)
    (by intro k h1 h2; rw [e1, clampedKnot_one n p k (by omega) h]) p
  rw [e1] at key
  unfold combPiece
  rw [eval_finsetSum, sum_eq_single (n - 1)]
  · rw [eval_mul, eval_C, key _ le_rfl, if_pos rfl, mul_one]
  · intro i _ hne
    rw [eval_mul, key _ le_rfl, if_neg hne, mul_zero]
  · intro hc; exact absurd (mem_range.mpr (by omega)) hc

/-- **C86** (Curry-Schoenberg) The functions on `[0,1]` representable by a clamped basis of `n`
splines of degree `p` are exactly the splines of degree `p` with `p - 1` continuous derivatives on
`n - p` equal elements. -/
theorem C86_clamped_space (n p : Nat) (h : p < n) (hfine : n - p ≤ 99900)
    (s : SplineBasis ℝ) (hs : SplineBasis.mk? n p "clamped" = .ok s) (f : ℝ → ℝ) :
    (∃ c : Nat → ℝ, ∀ x, 0 ≤ x → x ≤ 1 → f x = ∑ i ∈ range n, c i * s.evaluate x (i : Int)) ↔ IsSpline p (n - p) f := by
  rw [of_mk?_clamped h hs]
  have ev : ∀ (c : Nat → ℝ) x, x < 1 → ∑ i ∈ range n, c i * (SplineBasis.mk n p "clamped" (clampedList ℝ n p)).evaluate x (i : Int)
      = ∑ i ∈ range n, c i * N (clampedKnot ℝ n p) p i x := fun c x hx =>
    sum_congr rfl fun i hi => by rw [eval_clamped n p h hfine x i (mem_range.mp hi), if_neg (by intro hc; exact hx.ne hc.2)]
  have ev1 : ∀ c : Nat → ℝ, ∑ i ∈ range n, c i * (SplineBasis.mk n p "clamped" (clampedList ℝ n p)).evaluate 1 (i : Int) = c (n - 1) := by
    intro c
    rw [sum_eq_single (n - 1)]
    · rw [eval_clamped n p h hfine 1 (n - 1) (by omega), if_pos ⟨rfl, rfl⟩, mul_one]
    · intro i hi hne
      rw [eval_clamped n p h hfine 1 i (mem_range.mp hi), if_neg (by tauto), N_clamped_at_one n p p i h (mem_range.mp hi), mul_zero]
    · intro hc; exact absurd (mem_range.mpr (by omega)) hc
  constructor
  · rintro ⟨c, hc⟩
    obtain ⟨a, b⟩ := comb_pieces_clamped n p h c f fun x h0 h1 => by rw [hc x h0 h1.le, ev c x h1]
    refine ⟨_, a, b, ?_⟩
    rw [hc 1 zero_le_one le_rfl, ev1]
    beta_reduce
    rw [show p + (n - p - 1) = n - 1 by omega, combPiece_at_one n p h]
  · rintro ⟨P, hP, hS, h1⟩
    obtain ⟨c, hc1, hc2⟩ := pieces_comb_clamped n p h P f hP hS
    refine ⟨c, fun x hx0 hx1 => ?_⟩
    rcases hx1.lt_or_eq with hx | rfl
    · rw [hc2 x hx0 hx, ev c x hx]
    · rw [h1, ev1, hc1 _ (by omega), show p + (n - p - 1) = n - 1 by omega, combPiece_at_one n p h]

/-! ## Periodic -/

theorem N_periodic_translate (n p q j : Nat) (hn : 0 < n) (y : ℝ) :
    N (periodicKnot ℝ n p) q (n + j) (y + 1) = N (periodicKnot ℝ n p) q j y := by
  induction q generalizing j with
  | zero =>
    simp only [N, Nat.add_assoc, periodicKnot_add n p _ hn]
    simp
  | succ q ih =>
    simp only [N, Nat.add_assoc, periodicKnot_add n p _ hn]
    have := ih (j + 1)
    rw [ih j, this]
    congr 2 <;> congr 1 <;> ring

theorem periodic_lt (n p j : Nat) (hn : 0 < n) : periodicKnot ℝ n p j < periodicKnot ℝ n p (j + 1) :=
  strictMono_periodicKnot n p hn (by omega)

/-- Sums over the wrapped functions. -/
theorem sum_periodic (n p : Nat) (hpn : p ≤ n) (hn : 0 < n) (hfine : n ≤ 49975) (c : Nat → ℝ) (x : ℝ) :
    ∑ i ∈ range n, c i * (SplineBasis.mk n p "periodic" (periodicList ℝ n p)).evaluate x (i : Int)
      = ∑ i ∈ range (n + p), c (i % n) * N (periodicKnot ℝ n p) p i x := by
  rw [← sum_wrap n p hpn (fun i => c (i % n) * N (periodicKnot ℝ n p) p i x)]
  refine sum_congr rfl fun i hi => ?_
  have hin := mem_range.mp hi
  rw [eval_periodic n p hpn hn hfine x i hin, Nat.add_mod_left, Nat.mod_eq_of_lt hin]
  split_ifs <;> ring

theorem comb_extra (n p e : Nat) (c : Nat → ℝ) (he : e < n + p) :
    combPiece (periodicKnot ℝ n p) p (n + p + 1) c e = combPiece (periodicKnot ℝ n p) p (n + p) c e := by
  unfold combPiece
  rw [sum_range_succ, NP_support _ e p (n + p) (Or.inl he), mul_zero, add_zero]

/-- The piece one period further on is the translate of the first piece with shifted coefficients. -/
theorem comb_translate (n p : Nat) (hn : 0 < n) (c : Nat → ℝ) :
    combPiece (periodicKnot ℝ n p) p (n + p + 1) c (n + p)
      = (combPiece (periodicKnot ℝ n p) p (n + p + 1) (fun i => c (n + i)) p).comp (X - C 1) := by
  have hm := (strictMono_periodicKnot (K := ℝ) n p hn).monotone
  refine poly_ext_interval (periodic_lt n p (n + p) hn) fun x h1 h2 => ?_
  rw [combPiece_eval hm p _ c (n + p) h1.le h2, eval_comp, eval_sub, eval_X, eval_C]
  have k1 := periodicKnot_add (K := ℝ) n p p hn
  have k2 := periodicKnot_add (K := ℝ) n p (p + 1) hn
  rw [← add_assoc] at k2
  rw [combPiece_eval hm p _ _ p (by linarith) (by linarith)]
  rw [show n + p + 1 = n + (p + 1) by omega, sum_range_add, show n + (p + 1) = p + 1 + n by omega, sum_range_add _ (p + 1) n]
  rw [sum_eq_zero (s := range n), zero_add, sum_eq_zero (s := range n) (f := fun i => c (n + (p + 1 + i)) * N (periodicKnot ℝ n p) p (p + 1 + i) (x - 1)), add_zero]
  · refine sum_congr rfl fun i _ => ?_
    rw [← N_periodic_translate n p p i hn (x - 1), sub_add_cancel]
  · intro i _
    rw [N_eq_zero_of_lt hm, mul_zero]
    have := hm (show p + 1 ≤ p + 1 + i by omega)
    linarith
  · intro i hi
    have := mem_range.mp hi
    rw [N_eq_zero_of_ge hm, mul_zero]
    exact (hm (show i + p + 1 ≤ n + p by omega)).trans h1.le

theorem iterate_derivative_translate (P : ℝ[X]) (k : Nat) : derivative^[k] (P.comp (X - C 1)) = (derivative^[k] P).comp (X - C 1) := by
  induction k generalizing P with
  | zero => rfl
  | succ k ih =>
    rw [Function.iterate_succ_apply, Function.iterate_succ_apply, derivative_comp]
    simp only [derivative_sub, derivative_X, derivative_C, sub_zero, one_mul]
    rw [ih]

theorem joined_translate (p : Nat) (P Q : ℝ[X]) : JoinedAt p P 1 (Q.comp (X - C 1)) 1 ↔ JoinedAt p P 1 Q 0 := by
  unfold JoinedAt
  refine forall_congr' fun k => forall_congr' fun _ => ?_
  rw [iterate_derivative_translate, eval_comp]
  simp

theorem knot_one (n p : Nat) (hn : 0 < n) : periodicKnot ℝ n p (n + p) = 1 := by
  rw [periodicKnot_add n p p hn, periodicKnot_p, zero_add]

/-- The two directions over the periodic knots, on `[0,1)`; `q` is the degree used. -/
theorem periodic_space (n p : Nat) (hn : 0 < n) (f : ℝ → ℝ) :
    (∃ c : Nat → ℝ, ∀ x, 0 ≤ x → x < 1 → f x = ∑ i ∈ range (n + p), c (i % n) * N (periodicKnot ℝ n p) p i x) ↔
      ∃ P : Nat → ℝ[X], PiecesOf p n f P ∧ Smooth p n P ∧ JoinedAt p (P (n - 1)) 1 (P 0) 0 := by
  have hm := (strictMono_periodicKnot (K := ℝ) n p hn).monotone
  have hn' : (0 : ℝ) < n := by exact_mod_cast hn
  have brk : ∀ j : Nat, periodicKnot ℝ n p (p + j + 1) = ((j : ℝ) + 1) / n := by
    intro j
    rw [show p + j + 1 = p + (j + 1) by omega, periodicKnot_elem]; push_cast; rfl
  constructor
  · rintro ⟨c, hc⟩
    refine ⟨fun j => combPiece (periodicKnot ℝ n p) p (n + p + 1) (fun i => c (i % n)) (p + j), ⟨fun j _ => combPiece_natDegree _ _ _ _ _, ?_⟩, ?_, ?_⟩
    · intro j hj x h1 h2
      beta_reduce
      have hx1 : x < 1 := lt_of_lt_of_le h2 (by rw [div_le_one hn']; exact_mod_cast (show j + 1 ≤ n by omega))
      have hx0 : 0 ≤ x := le_trans (by positivity) h1
      rw [comb_extra n p _ _ (by omega), combPiece_eval hm _ _ _ _ (by rw [periodicKnot_elem]; exact h1) (by rw [brk]; exact h2), hc x hx0 hx1]
    · intro j hj
      have := combPiece_joined hm p (n + p + 1) (fun i => c (i % n)) (p + j) (periodic_lt n p _ hn) (periodic_lt n p _ hn)
      rw [brk] at this
      exact this
    · beta_reduce
      have := combPiece_joined hm p (n + p + 1) (fun i => c (i % n)) (n + p - 1) (periodic_lt n p _ hn) (periodic_lt n p _ hn)
      rw [show n + p - 1 + 1 = n + p by omega, knot_one n p hn, comb_translate n p hn, joined_translate] at this
      rw [show p + (n - 1) = n + p - 1 by omega, add_zero]
      simpa only [Nat.add_mod_left] using this
  · rintro ⟨P, hP, hS, hJ⟩
    obtain ⟨d, hd⟩ := pieces_are_comb hm (p := p) (m := n + p + 1) (by omega) (fun e _ _ => periodic_lt n p e hn)
      (fun e => if e < n + p then P (e - p) else (P 0).comp (X - C 1))
      (by
        intro e h1 h2
        beta_reduce
        split_ifs with h3
        · exact hP.degree _ (by omega)
        · refine natDegree_comp_le.trans ?_
          rw [natDegree_X_sub_C, mul_one]
          exact hP.degree 0 hn)
      (by
        intro e h1 h2
        beta_reduce
        rw [if_pos (show e < n + p by omega)]
        by_cases h3 : e + 1 < n + p
        · rw [if_pos h3]
          obtain ⟨j, rfl⟩ : ∃ j, e = p + j := ⟨e - p, by omega⟩
          rw [brk, show p + j - p = j by omega, show p + j + 1 - p = j + 1 by omega]
          exact hS j (by omega)
        · rw [if_neg h3, show e + 1 = n + p by omega, knot_one n p hn, joined_translate, show e - p = n - 1 by omega]
          exact hJ)
    have hper : ∀ i ≤ p, d (n + i) = d i := by
      have e1 := hd (n + p) (by omega) (by omega)
      have e2 := hd p le_rfl (by omega)
      beta_reduce at e1 e2
      rw [if_neg (by omega), comb_translate n p hn] at e1
      rw [if_pos (by omega), Nat.sub_self] at e2
      have e3 : P 0 = combPiece (periodicKnot ℝ n p) p (n + p + 1) (fun i => d (n + i)) p := by
        refine Polynomial.funext fun x => ?_
        have := congrArg (fun Q => Polynomial.eval (x + 1) Q) e1
        simpa only [eval_comp, eval_sub, eval_X, eval_C, add_sub_cancel_right] using this
      have := N_local_indep hm (e := p) (m := n + p + 1) (by omega) (periodic_lt n p p hn) p le_rfl (fun i => d (n + i) - d i)
        (by
          intro x h1 h2
          have a1 := combPiece_eval hm p (n + p + 1) (fun i => d (n + i)) p h1.le h2
          have a2 := combPiece_eval hm p (n + p + 1) d p h1.le h2
          rw [← e3] at a1
          rw [← e2] at a2
          simp only [sub_mul, sum_sub_distrib]
          rw [← a1, ← a2, sub_self])
      intro i hi
      exact sub_eq_zero.mp (this i (by omega) hi)
    have hmod : ∀ i, i < n + p → d i = d (i % n) := by
      intro i
      induction i using Nat.strong_induction_on with
      | _ i ih =>
        intro hi
        by_cases hin : i < n
        · rw [Nat.mod_eq_of_lt hin]
        · have := hper (i - n) (by omega)
          rw [show n + (i - n) = i by omega] at this
          rw [this, ih (i - n) (by omega) (by omega), ← Nat.mod_eq_sub_mod (by omega)]
    refine ⟨d, fun x h0 h1 => ?_⟩
    obtain ⟨j, hj, e1, e2⟩ := elem_of n hn x h0 h1
    have := hd (p + j) (by omega) (by omega)
    beta_reduce at this
    rw [if_pos (by omega), show p + j - p = j by omega, comb_extra n p _ _ (by omega)] at this
    rw [hP.inside j hj x e1 e2, this, combPiece_eval hm _ _ _ _ (by rw [periodicKnot_elem]; exact e1) (by rw [brk]; exact e2)]
    exact sum_congr rfl fun i hi => by rw [hmod i (mem_range.mp hi)]

/-- **C86** The functions on `[0,1]` representable by a periodic basis of `n` splines of degree
`p ≥ 1` are exactly the splines of degree `p` on `n` equal elements whose derivatives of orders
`< p` agree at the breaks and across the seam. -/
theorem C86_periodic_space (n p : Nat) (hp : 1 ≤ p) (hn : 1 ≤ n) (h : p < n ∨ p = 1) (hfine : n ≤ 49975)
    (s : SplineBasis ℝ) (hs : SplineBasis.mk? n p "periodic" = .ok s) (f : ℝ → ℝ) :
    (∃ c : Nat → ℝ, ∀ x, 0 ≤ x → x ≤ 1 → f x = ∑ i ∈ range n, c i * s.evaluate x (i : Int)) ↔ IsPeriodicSpline p n f := by
  have seam : ∀ c : Nat → ℝ, ∑ i ∈ range n, c i * s.evaluate 1 (i : Int) = ∑ i ∈ range n, c i * s.evaluate 0 (i : Int) := fun c =>
    sum_congr rfl fun i hi => by rw [C06_periodic_seam n p hp hn h hfine s hs i (mem_range.mp hi)]
  rw [of_mk?_periodic h hs] at seam ⊢
  have hn0 : (0 : ℝ) < n := by exact_mod_cast hn
  have at0 : ∀ P, PiecesOf p n f P → f 0 = (P 0).eval 0 := fun P hP => hP.inside 0 hn 0 (by simp) (by positivity)
  have atJ : ∀ P : Nat → ℝ[X], JoinedAt p (P (n - 1)) 1 (P 0) 0 → (P (n - 1)).eval 1 = (P 0).eval 0 := fun P hJ => hJ 0 (by omega)
  constructor
  · rintro ⟨c, hc⟩
    obtain ⟨P, hP, hS, hJ⟩ := (periodic_space n p hn f).mp ⟨c, fun x h0 h1 => by rw [hc x h0 h1.le, sum_periodic n p (by omega) hn hfine]⟩
    refine ⟨P, hP, hS, ?_, hJ⟩
    rw [atJ P hJ, ← at0 P hP, hc 1 zero_le_one le_rfl, hc 0 le_rfl zero_le_one, seam]
  · rintro ⟨P, hP, hS, h1, hJ⟩
    obtain ⟨c, hc⟩ := (periodic_space n p hn f).mpr ⟨P, hP, hS, hJ⟩
    refine ⟨c, fun x hx0 hx1 => ?_⟩
    rcases hx1.lt_or_eq with hx | rfl
    · rw [hc x hx0 hx, sum_periodic n p (by omega) hn hfine]
    · rw [h1, atJ P hJ, ← at0 P hP, hc 0 le_rfl zero_lt_one, seam, sum_periodic n p (by omega) hn hfine]

/-! ## The derivative bases -/

theorem clampedKnot_shift (n p k : Nat) (hp : 1 ≤ p) (h : p < n) : clampedKnot ℝ n p (k + 1) = clampedKnot ℝ (n - 1) (p - 1) k := by
  unfold clampedKnot
  rw [show n - 1 - (p - 1) = n - p by omega, show k - (p - 1) = k + 1 - p by omega]
  by_cases h1 : k + 1 ≤ p
  · rw [if_pos h1, if_pos (by omega)]
  · rw [if_neg h1, if_neg (show ¬ k ≤ p - 1 by omega)]
    by_cases h2 : n ≤ k + 1
    · rw [if_pos h2, if_pos (show n - 1 ≤ k by omega)]
    · rw [if_neg h2, if_neg (show ¬ n - 1 ≤ k by omega)]

theorem clamped_gap_pos (n p i : Nat) (hp : 1 ≤ p) (h : p < n) (hi : i < n - 1) :
    0 < clampedKnot ℝ n p (i + p + 1) - clampedKnot ℝ n p (i + 1) := by
  have hM : (0 : ℝ) < ((n - p : Nat) : ℝ) := by exact_mod_cast (show 0 < n - p by omega)
  by_cases h1 : n ≤ i + p + 1
  · have := clampedKnot_lt_one (K := ℝ) n p (i + 1) (by omega) h
    rw [clampedKnot_one n p (i + p + 1) h1 h]; linarith
  · have e := clampedKnot_elem n p (i + 1) h (by omega)
    rw [show i + p + 1 = p + (i + 1) by omega, e]
    by_cases h2 : i + 1 ≤ p
    · rw [clampedKnot_zero n p _ h2]; push_cast; rw [sub_zero]; positivity
    · have e2 := clampedKnot_elem n p (i + 1 - p) h (by omega)
      rw [show p + (i + 1 - p) = i + 1 by omega] at e2
      rw [e2, ← sub_div]
      refine div_pos ?_ hM
      rw [Nat.cast_sub (by omega)]
      have : (0 : ℝ) < p := by exact_mod_cast hp
      linarith

/-- **C86** The derivative basis of a clamped basis spans, on `[0,1)`, exactly the splines of degree
`p - 1` with `p - 2` continuous derivatives on the same elements (at `x = 1` its values are wrong,
see C08). -/
theorem C86_clamped_derivative_space (n p : Nat) (hp : 1 ≤ p) (h : p < n) (hfine : n - p ≤ 99900)
    (s : SplineBasis ℝ) (hs : SplineBasis.mk? n p "clamped" = .ok s)
    (d : DerivativeSpline ℝ) (hd : DerivativeSpline.mk? s = .ok d) (f : ℝ → ℝ) :
    (∃ c : Nat → ℝ, ∀ x, 0 ≤ x → x < 1 → f x = ∑ i ∈ range (n - 1), c i * d.evaluate x (i : Int)) ↔ IsSplineInside (p - 1) (n - p) f := by
  have eM : n - 1 - (p - 1) = n - p := by omega
  have hp0 : (p : ℝ) ≠ 0 := by exact_mod_cast (show p ≠ 0 by omega)
  have val : ∀ x, x < 1 → ∀ i < n - 1, d.evaluate x (i : Int)
      = p / (clampedKnot ℝ n p (i + p + 1) - clampedKnot ℝ n p (i + 1)) * N (clampedKnot ℝ (n - 1) (p - 1)) (p - 1) i x := by
    intro x hx i hi
    rw [C08_clamped_derivative_values n p hp h hfine s hs d hd x hx.ne i, if_pos hi]
    have : N (clampedKnot ℝ n p) (p - 1) (i + 1) x = N (clampedKnot ℝ (n - 1) (p - 1)) (p - 1) i x :=
      N_congr fun k _ => by rw [show i + 1 + k = i + k + 1 by omega, clampedKnot_shift n p _ hp h]
    rw [this]
    ring
  constructor
  · rintro ⟨c, hc⟩
    obtain ⟨a, b⟩ := comb_pieces_clamped (n - 1) (p - 1) (by omega) (fun i => c i * (p / (clampedKnot ℝ n p (i + p + 1) - clampedKnot ℝ n p (i + 1)))) f
      (fun x h0 h1 => by
        rw [hc x h0 h1]
        refine sum_congr rfl fun i hi => ?_
        rw [val x h1 i (mem_range.mp hi)]
        ring)
    rw [eM] at a b
    exact ⟨_, a, b⟩
  · rintro ⟨P, hP, hS⟩
    rw [← eM] at hP hS
    obtain ⟨c, _, hc⟩ := pieces_comb_clamped (n - 1) (p - 1) (by omega) P f hP hS
    refine ⟨fun i => c i * ((clampedKnot ℝ n p (i + p + 1) - clampedKnot ℝ n p (i + 1)) / p), fun x h0 h1 => ?_⟩
    rw [hc x h0 h1]
    refine sum_congr rfl fun i hi => ?_
    rw [val x h1 i (mem_range.mp hi)]
    have := (clamped_gap_pos n p i hp h (mem_range.mp hi)).ne'
    field_simp

theorem deriv_periodic_eq (n p : Nat) (hp : 1 ≤ p) (hn : 1 ≤ n) (h : p < n ∨ p = 1) (hfine : n ≤ 49975)
    (s : SplineBasis ℝ) (hs : SplineBasis.mk? n p "periodic" = .ok s)
    (d : DerivativeSpline ℝ) (hd : DerivativeSpline.mk? s = .ok d) (x : ℝ) (i : Nat) (hi : i < n) :
    d.evaluate x (i : Int) = n * (SplineBasis.mk n (p - 1) "periodic" (periodicList ℝ n (p - 1))).evaluate x (i : Int) := by
  have hsh : ∀ j, N (periodicKnot ℝ n (p - 1)) (p - 1) j x = N (periodicKnot ℝ n p) (p - 1) (j + 1) x := by
    intro j
    refine N_congr fun k _ => ?_
    unfold periodicKnot
    rw [Nat.cast_sub hp]
    push_cast
    ring
  rw [periodic_derivative_values n p hp hn h hfine s hs d hd x i hi, eval_periodic n (p - 1) (by omega) hn hfine x i hi, hsh, hsh]

/-- **C86** The derivative basis of a periodic basis spans, on `[0,1)`, exactly the periodic splines
of degree `p - 1` on the same elements. -/
theorem C86_periodic_derivative_space (n p : Nat) (hp : 1 ≤ p) (hn : 1 ≤ n) (h : p < n ∨ p = 1) (hfine : n ≤ 49975)
    (s : SplineBasis ℝ) (hs : SplineBasis.mk? n p "periodic" = .ok s)
    (d : DerivativeSpline ℝ) (hd : DerivativeSpline.mk? s = .ok d) (f : ℝ → ℝ) :
    (∃ c : Nat → ℝ, ∀ x, 0 ≤ x → x < 1 → f x = ∑ i ∈ range n, c i * d.evaluate x (i : Int)) ↔ IsPeriodicSplineInside (p - 1) n f := by
  have hn' : (n : ℝ) ≠ 0 := by exact_mod_cast (show n ≠ 0 by omega)
  have val : ∀ (c : Nat → ℝ) x, ∑ i ∈ range n, c i * d.evaluate x (i : Int)
      = ∑ i ∈ range (n + (p - 1)), (c (i % n) * n) * N (periodicKnot ℝ n (p - 1)) (p - 1) i x := by
    intro c x
    rw [← sum_periodic n (p - 1) (by omega) hn hfine (fun i => c i * n) x]
    refine sum_congr rfl fun i hi => ?_
    rw [deriv_periodic_eq n p hp hn h hfine s hs d hd x i (mem_range.mp hi)]
    ring
  unfold IsPeriodicSplineInside
  rw [← periodic_space n (p - 1) hn f]
  constructor
  · rintro ⟨c, hc⟩
    exact ⟨fun i => c i * n, fun x h0 h1 => by rw [hc x h0 h1, val]⟩
  · rintro ⟨c, hc⟩
    refine ⟨fun i => c i / n, fun x h0 h1 => ?_⟩
    rw [hc x h0 h1, val]
    exact sum_congr rfl fun i _ => by rw [div_mul_cancel₀ _ hn']

/-! ## Refinement -/

theorem refine_pieces {p M k : Nat} (hk : 1 ≤ k) (hM : 1 ≤ M) {f : ℝ → ℝ} {P : Nat → ℝ[X]} (hP : PiecesOf p M f P) (hS : Smooth p M P) :
    PiecesOf p (k * M) f (fun j => P (j / k)) ∧ Smooth p (k * M) (fun j => P (j / k)) := by
  have hk' : (0 : ℝ) < k := by exact_mod_cast hk
  have hM' : (0 : ℝ) < M := by exact_mod_cast hM
  have low : ∀ j, j < k * M → j / k < M := fun j hj => Nat.div_lt_of_lt_mul hj
  refine ⟨⟨fun j hj => hP.degree _ (low j hj), ?_⟩, ?_⟩
  · intro j hj x h1 h2
    refine hP.inside _ (low j hj) x (le_trans ?_ h1) (lt_of_lt_of_le h2 ?_)
    · push_cast
      rw [div_le_div_iff₀ hM' (by positivity)]
      have : ((j / k : Nat) : ℝ) * k ≤ j := by exact_mod_cast Nat.div_mul_le_self j k
      nlinarith
    · push_cast
      rw [div_le_div_iff₀ (by positivity) hM']
      have : (j : ℝ) + 1 ≤ (((j / k : Nat) : ℝ) + 1) * k := by
        have := Nat.lt_div_mul_add (a := j) hk
        have h3 : j + 1 ≤ (j / k + 1) * k := by rw [add_mul, one_mul]; omega
        exact_mod_cast h3
      nlinarith
  · intro j hj
    beta_reduce
    by_cases h : (j + 1) / k = j / k
    · rw [h]; intro m _; rfl
    · have hdvd : k ∣ j + 1 := by
        by_contra hc
        exact h (Nat.succ_div_of_not_dvd hc)
      have e1 : (j + 1) / k = j / k + 1 := Nat.succ_div_of_dvd hdvd
      have e2 : ((j : ℝ) + 1) = k * (((j / k : Nat) : ℝ) + 1) := by
        have := Nat.mul_div_cancel' hdvd
        rw [e1] at this
        exact_mod_cast this.symm
      have hlt := low (j + 1) hj
      rw [e1] at hlt
      have := hS (j / k) hlt
      have eb : ((j : ℝ) + 1) / ((k * M : Nat) : ℝ) = (((j / k : Nat) : ℝ) + 1) / M := by
        push_cast
        rw [e2, mul_div_mul_left _ _ hk'.ne']
      rw [eb, e1]
      exact this

theorem last_piece {k M : Nat} (hk : 1 ≤ k) (hM : 1 ≤ M) : (k * M - 1) / k = M - 1 := by
  obtain ⟨m, rfl⟩ : ∃ m, M = m + 1 := ⟨M - 1, by omega⟩
  rw [Nat.add_sub_cancel, show k * (m + 1) - 1 = k - 1 + k * m by rw [Nat.mul_add]; omega, Nat.add_mul_div_left _ _ hk, Nat.div_eq_of_lt (by omega), zero_add]

/-- **C87** Refining every element of a clamped grid into `k` equal parts keeps every function:
whatever the coarse basis represents, the fine basis (same degree) represents too. -/
theorem C87_clamped_refinement (n p k n' : Nat) (h : p < n) (hk : 1 ≤ k) (hn' : n' - p = k * (n - p)) (hfine : n' - p ≤ 99900)
    (s : SplineBasis ℝ) (hs : SplineBasis.mk? n p "clamped" = .ok s)
    (s' : SplineBasis ℝ) (hs' : SplineBasis.mk? n' p "clamped" = .ok s') (c : Nat → ℝ) :
    ∃ c' : Nat → ℝ, ∀ x, 0 ≤ x → x ≤ 1 → ∑ i ∈ range n, c i * s.evaluate x (i : Int) = ∑ i ∈ range n', c' i * s'.evaluate x (i : Int) := by
  have hM : 1 ≤ n - p := by omega
  have hle : n - p ≤ n' - p := by rw [hn']; exact Nat.le_mul_of_pos_left _ hk
  obtain ⟨P, hP, hS, h1⟩ := (C86_clamped_space n p h (by omega) s hs (fun x => ∑ i ∈ range n, c i * s.evaluate x (i : Int))).mp ⟨c, fun _ _ _ => rfl⟩
  refine (C86_clamped_space n' p (by omega) hfine s' hs' _).mpr ?_
  rw [hn']
  obtain ⟨a, b⟩ := refine_pieces hk hM hP hS
  exact ⟨_, a, b, by beta_reduce; rw [last_piece hk hM]; exact h1⟩

/-- **C87** The same for periodic grids. -/
theorem C87_periodic_refinement (n p k n' : Nat) (hp : 1 ≤ p) (hn : 1 ≤ n) (h : p < n ∨ p = 1) (hk : 1 ≤ k) (hn' : n' = k * n) (hfine : n' ≤ 49975)
    (s : SplineBasis ℝ) (hs : SplineBasis.mk? n p "periodic" = .ok s)
    (s' : SplineBasis ℝ) (hs' : SplineBasis.mk? n' p "periodic" = .ok s') (c : Nat → ℝ) :
    ∃ c' : Nat → ℝ, ∀ x, 0 ≤ x → x ≤ 1 → ∑ i ∈ range n, c i * s.evaluate x (i : Int) = ∑ i ∈ range n', c' i * s'.evaluate x (i : Int) := by
  have hle : n ≤ n' := by rw [hn']; exact Nat.le_mul_of_pos_left _ hk
  obtain ⟨P, hP, hS, h1, hJ⟩ := (C86_periodic_space n p hp hn h (by omega) s hs (fun x => ∑ i ∈ range n, c i * s.evaluate x (i : Int))).mp ⟨c, fun _ _ _ => rfl⟩
  refine (C86_periodic_space n' p hp (by omega) (by omega) hfine s' hs' _).mpr ?_
  rw [hn']
  obtain ⟨a, b⟩ := refine_pieces hk hn hP hS
  refine ⟨_, a, b, ?_, ?_⟩
  · beta_reduce; rw [last_piece hk hn]; exact h1
  · beta_reduce; rw [last_piece hk hn, Nat.zero_div]; exact hJ

/-! ## The hypotheses are met -/

/-- Six quadratic clamped splines refine to ten. -/
example : ∃ s s' : SplineBasis ℝ, SplineBasis.mk? 6 2 "clamped" = .ok s ∧ SplineBasis.mk? 10 2 "clamped" = .ok s' ∧ 10 - 2 = 2 * (6 - 2) :=
  ⟨_, _, mk?_clamped 6 2 (Or.inl (by norm_num)), mk?_clamped 10 2 (Or.inl (by norm_num)), rfl⟩

/-- A function with a kink at a break is a spline of degree one ... -/
theorem kink_isSpline : IsSpline 1 2 (fun x => max (x - 1 / 2) 0) := by
  refine ⟨fun j => if j = 0 then 0 else X - C (1 / 2), ⟨?_, ?_⟩, ?_, ?_⟩
  · intro j _
    beta_reduce
    split_ifs
    · simp
    · rw [natDegree_X_sub_C]
  · intro j hj x h1 h2
    beta_reduce
    have : j = 0 ∨ j = 1 := by omega
    rcases this with rfl | rfl
    · rw [if_pos rfl, eval_zero]
      refine max_eq_right ?_
      push_cast at h2
      linarith
    · rw [if_neg (by omega), eval_sub, eval_X, eval_C]
      refine max_eq_left ?_
      push_cast at h1
      linarith
  · intro j hj k hk
    have h0 : j = 0 := by omega
    have h1 : k = 0 := by omega
    subst h0; subst h1
    simp
  · norm_num [max_def]

/-- ... hence, with three piecewise linear functions, exactly representable. -/
example (s : SplineBasis ℝ) (hs : SplineBasis.mk? 3 1 "clamped" = .ok s) :
    ∃ c : Nat → ℝ, ∀ x, 0 ≤ x → x ≤ 1 → max (x - 1 / 2) 0 = ∑ i ∈ range 3, c i * s.evaluate x (i : Int) :=
  (C86_clamped_space 3 1 (by norm_num) (by norm_num) s hs _).mpr kink_isSpline

/-- **C87** Nestedness needs the element counts to divide: the kink at `1/2`, representable on two
elements, is not representable on three. -/
theorem C87_not_nested (s : SplineBasis ℝ) (hs : SplineBasis.mk? 3 1 "clamped" = .ok s)
    (s' : SplineBasis ℝ) (hs' : SplineBasis.mk? 4 1 "clamped" = .ok s') :
    ∃ c : Nat → ℝ, ¬ ∃ c' : Nat → ℝ, ∀ x, 0 ≤ x → x ≤ 1 →
      ∑ i ∈ range 3, c i * s.evaluate x (i : Int) = ∑ i ∈ range 4, c' i * s'.evaluate x (i : Int) := by
  obtain ⟨c, hc⟩ := (C86_clamped_space 3 1 (by norm_num) (by norm_num) s hs _).mpr kink_isSpline
  refine ⟨c, ?_⟩
  rintro ⟨c', hc'⟩
  obtain ⟨P, hP, _, _⟩ := (C86_clamped_space 4 1 (by norm_num) (by norm_num) s' hs' (fun x => max (x - 1 / 2) 0)).mp
    ⟨c', fun x h0 h1 => by rw [← hc' x h0 h1, ← hc x h0 h1]⟩
  have key : ∀ x : ℝ, 1 / 3 ≤ x → x < 2 / 3 → max (x - 1 / 2) 0 = (P 1).eval x := by
    intro x h1 h2
    exact hP.inside 1 (by norm_num) x (by push_cast; linarith) (by push_cast; linarith)
  have z : P 1 = 0 := poly_ext_interval (a := 1 / 3) (b := 1 / 2) (by norm_num) fun x h1 h2 => by
    rw [← key x h1.le (by linarith), eval_zero]
    exact max_eq_right (by linarith)
  have := key (7 / 12) (by norm_num) (by norm_num)
  rw [z, eval_zero] at this
  norm_num [max_def] at this

/-- Cases of C86 and C87: six splines of degree two. -/
example := C86_marsden (K := ℚ) 6 2 (by norm_num) (by norm_num) _ (show SplineBasis.mk? 6 2 "clamped" = .ok _ from rfl) (1 / 3) (by norm_num) (by norm_num)
example := C86_greville (K := ℚ) 6 2 (by norm_num) (by norm_num) (by norm_num) _ (show SplineBasis.mk? 6 2 "clamped" = .ok _ from rfl) (1 / 3) (by norm_num) (by norm_num)
example := C86_polynomials 6 2 (by norm_num) (by norm_num) _ (show SplineBasis.mk? 6 2 "clamped" = .ok _ from rfl) (X ^ 2) (by simp)
example := C86_periodic_space 6 2 (by norm_num) (by norm_num) (Or.inl (by norm_num)) (by norm_num) _ (show SplineBasis.mk? 6 2 "periodic" = .ok _ from rfl)
example := C86_clamped_derivative_space 6 2 (by norm_num) (by norm_num) (by norm_num) _ (show SplineBasis.mk? 6 2 "clamped" = .ok _ from rfl) _
  (show DerivativeSpline.mk? _ = .ok _ from rfl)
example := C86_periodic_derivative_space 6 2 (by norm_num) (by norm_num) (Or.inl (by norm_num)) (by norm_num) _ (show SplineBasis.mk? 6 2 "periodic" = .ok _ from rfl) _
  (show DerivativeSpline.mk? _ = .ok _ from rfl)
example := C87_clamped_refinement 6 2 2 10 (by norm_num) (by norm_num) (by norm_num) (by norm_num) _ (show SplineBasis.mk? 6 2 "clamped" = .ok _ from rfl)
  _ (show SplineBasis.mk? 10 2 "clamped" = .ok _ from rfl)

end Mrx.Props
