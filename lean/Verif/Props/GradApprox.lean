import Verif.Props.ApproxVector
import Verif.Props.PoissonError

/-!
# C101, continued: gradients of discrete functions approximate gradients; error bound for the Poisson problem
-/

set_option linter.unusedSectionVars false
set_option linter.unusedVariables false

namespace Mrx.Props
open Finset Mrx.Spec Mrx Matrix DeRham Quad

/-- The derivative of a periodic function is periodic. -/
theorem periodic_deriv {φ φ' : ℝ → ℝ} (hper : ∀ x, φ (x + 1) = φ x) (hd : ∀ x, 0 ≤ x → x ≤ 1 → HasDerivAt φ (φ' x) x) (y : ℝ) :
    HasDerivAt φ (φ' (Int.fract y)) y := by
  have P : Function.Periodic φ 1 := hper
  have h1 := hd (Int.fract y) (Int.fract_nonneg y) (Int.fract_lt_one y).le
  have h2 : HasDerivAt (fun z => φ (z - ⌊y⌋)) (φ' (Int.fract y)) y := by
    have : HasDerivAt φ (φ' (Int.fract y)) (y - ⌊y⌋) := h1
    exact this.comp_sub_const y _
  have e : (fun z => φ (z - ⌊y⌋)) = φ := funext fun z => by
    have := P.sub_int_mul_eq (x := z) ⌊y⌋
    rwa [mul_one] at this
  rwa [e] at h2

theorem periodic_fract {φ : ℝ → ℝ} (hper : ∀ x, φ (x + 1) = φ x) (y : ℝ) : φ (Int.fract y) = φ y := by
  have P : Function.Periodic φ 1 := hper
  have := P.sub_int_mul_eq (x := y) ⌊y⌋
  rwa [mul_one] at this

/-- Mean value theorem in the form used here. -/
theorem mvt {φ φ' : ℝ → ℝ} {a b : ℝ} (hab : a < b) (hd : ∀ x, a ≤ x → x ≤ b → HasDerivAt φ (φ' x) x) :
    ∃ y, a ≤ y ∧ y ≤ b ∧ φ b - φ a = φ' y * (b - a) := by
  obtain ⟨y, hy, e⟩ := exists_hasDerivAt_eq_slope φ φ' hab (fun x hx => (hd x hx.1 hx.2).continuousAt.continuousWithinAt)
    (fun x hx => hd x hx.1.le hx.2.le)
  refine ⟨y, hy.1.le, hy.2.le, ?_⟩
  rw [e]
  have : b - a ≠ 0 := by linarith
  field_simp

/-- One direction: nodes of the splines, factors of the derivative splines, and the mean value theorem for the differences. -/
theorem dir_grad {n p q : Nat} {ty : String} (h : DirOK n p q ty) {s : SplineBasis ℝ} (hs : SplineBasis.mk? n p ty = .ok s)
    {d : DerivativeSpline ℝ} (hd : DerivativeSpline.mk? s = .ok d) :
    ∃ ξ lam : Nat → ℝ, (∀ i, 0 ≤ ξ i ∧ ξ i ≤ 1) ∧ (ty = "clamped" → ξ 0 = 0 ∧ ξ (n - 1) = 1) ∧
      (∀ i < n, ∀ x, 0 ≤ x → x ≤ 1 → s.evaluate x (i : Int) ≠ 0 → NearDir ty (reach n p ty) x (ξ i)) ∧
      (∀ x, 0 ≤ x → x < 1 → (∀ i < Form.dsize n ty, 0 ≤ lam i * d.evaluate x (i : Int)) ∧ ∑ i ∈ range (Form.dsize n ty), lam i * d.evaluate x (i : Int) = 1) ∧
      ∀ φ φ' : ℝ → ℝ, (∀ x, 0 ≤ x → x ≤ 1 → HasDerivAt φ (φ' x) x) → (ty ≠ "clamped" → ∀ x, φ (x + 1) = φ x) →
        ∀ i < Form.dsize n ty, ∃ y, (0 ≤ y ∧ y ≤ 1) ∧ φ (ξ ((i + 1) % n)) - φ (ξ i) = φ' y * lam i ∧
          ∀ x, 0 ≤ x → x < 1 → lam i * d.evaluate x (i : Int) ≠ 0 → NearDir ty (reach n p ty) x y := by
  have h' := h
  rcases h with ⟨rfl, hp, hn, hfine, _⟩ | ⟨rfl, hp, b, c, hfine, _⟩ | ⟨rfl, rfl, _⟩
  · have hp0 : (0 : ℝ) < p := by exact_mod_cast hp
    have hn0 : (0 : ℝ) < (n : ℝ) - p := by have : (p : ℝ) < n := by exact_mod_cast hn
                                           linarith
    have hm := monotone_clampedKnot (K := ℝ) n p hn
    have val : ∀ x, x < 1 → ∀ i < n - 1, (clampedKnot ℝ n p (i + p + 1) - clampedKnot ℝ n p (i + 1)) / p * d.evaluate x (i : Int)
        = N (clampedKnot ℝ (n - 1) (p - 1)) (p - 1) i x := by
      intro x hx i hi
      rw [C08_clamped_derivative_values n p hp hn hfine s hs d hd x hx.ne i, if_pos hi]
      have : N (clampedKnot ℝ n p) (p - 1) (i + 1) x = N (clampedKnot ℝ (n - 1) (p - 1)) (p - 1) i x :=
        N_congr fun k _ => by rw [show i + 1 + k = i + k + 1 by omega, clampedKnot_shift n p _ hp hn]
      rw [this]
      have := (clamped_gap_pos n p i hp hn hi).ne'
      field_simp
    have hm' := monotone_clampedKnot (K := ℝ) (n - 1) (p - 1) (by omega)
    have hsz : Form.dsize n "clamped" = n - 1 := rfl
    refine ⟨grev n p, fun i => (clampedKnot ℝ n p (i + p + 1) - clampedKnot ℝ n p (i + 1)) / p, fun i => grev_mem n p i hp hn,
      fun _ => grev_ends n p hp hn, fun i hi x _ _ hx => Or.inr ⟨by decide, ?_⟩, fun x h0 h1 => ⟨?_, ?_⟩, fun φ φ' hφ _ i hi => ?_⟩
    · unfold reach
      rw [if_pos rfl]
      exact grev_near n p hp hn hfine hs x i hi hx
    · intro i hi
      beta_reduce
      rw [val x h1 i (by rwa [hsz] at hi)]
      exact N_nonneg hm' _ _ _
    · rw [hsz, sum_congr rfl fun i hi => val x h1 i (mem_range.mp hi)]
      refine N_sum hm' ?_ ?_
      · rw [clampedKnot_zero _ _ _ le_rfl]; exact h0
      · rw [clampedKnot_one _ _ _ le_rfl (by omega)]; exact h1
    · rw [hsz] at hi
      have gap := clamped_gap_pos n p i hp hn hi
      have tel : grev n p (i + 1) - grev n p i = (clampedKnot ℝ n p (i + p + 1) - clampedKnot ℝ n p (i + 1)) / p := by
        unfold grev
        rw [← sub_div, ← sum_sub_distrib]
        congr 1
        have := sum_range_sub (fun l => clampedKnot ℝ n p (i + 1 + l)) p
        rw [show i + p + 1 = i + 1 + p by omega, ← add_zero (i + 1), add_zero (i + 1), ← this]
        exact sum_congr rfl fun l _ => by rw [show i + 1 + 1 + l = i + 1 + (l + 1) by omega]
      have lt : grev n p i < grev n p (i + 1) := by
        have : 0 < grev n p (i + 1) - grev n p i := by rw [tel]; exact div_pos gap hp0
        linarith
      obtain ⟨y, y1, y2, ye⟩ := mvt lt fun x hx1 hx2 => hφ x ((grev_mem n p i hp hn).1.trans hx1) (hx2.trans (grev_mem n p (i + 1) hp hn).2)
      refine ⟨y, ⟨(grev_mem n p i hp hn).1.trans y1, y2.trans (grev_mem n p (i + 1) hp hn).2⟩, ?_, fun x h0 h1 hx => Or.inr ⟨by decide, ?_⟩⟩
      · rw [Nat.mod_eq_of_lt (by omega), ye, tel]
      · beta_reduce at hx
        rw [val x h1 i hi] at hx
        have e1 : clampedKnot ℝ n p (i + 1) = clampedKnot ℝ (n - 1) (p - 1) i := clampedKnot_shift n p i hp hn
        have e2 : clampedKnot ℝ n p (i + p + 1) = clampedKnot ℝ (n - 1) (p - 1) (i + (p - 1) + 1) := by
          rw [← clampedKnot_shift n p _ hp hn]
          congr 1
          omega
        have l1 : clampedKnot ℝ n p (i + 1) ≤ x := by
          by_contra hc
          rw [e1] at hc
          exact hx (N_eq_zero_of_lt hm' (not_le.mp hc))
        have l2 : x ≤ clampedKnot ℝ n p (i + p + 1) := by
          by_contra hc
          rw [e2] at hc
          exact hx (N_eq_zero_of_ge hm' (not_le.mp hc).le)
        have a := grev_near' n p hp hn x i ⟨(hm (by omega)).trans l1, l2⟩
        have b := grev_near' n p hp hn x (i + 1) ⟨l1, l2.trans (hm (by omega))⟩
        unfold reach
        rw [if_pos rfl]
        rw [abs_le] at a b ⊢
        constructor <;> linarith
  · have hn0 : (0 : ℝ) < n := by exact_mod_cast c
    have hn' := hn0.ne'
    have hm := (strictMono_periodicKnot (K := ℝ) n (p - 1) c).monotone
    have hsz : Form.dsize n "periodic" = n := rfl
    have val : ∀ x, ∀ i < n, (1 / (n : ℝ)) * d.evaluate x (i : Int)
        = if i < p - 1 then N (periodicKnot ℝ n (p - 1)) (p - 1) i x + N (periodicKnot ℝ n (p - 1)) (p - 1) (n + i) x
          else N (periodicKnot ℝ n (p - 1)) (p - 1) i x := by
      intro x i hi
      rw [deriv_periodic_eq n p hp c b hfine s hs d hd x i hi, eval_periodic n (p - 1) (by omega) c hfine x i hi]
      field_simp
    refine ⟨pcentre n p, fun _ => 1 / n, fun i => ⟨Int.fract_nonneg _, (Int.fract_lt_one _).le⟩, fun hc => absurd hc (by decide),
      fun i hi x _ _ hx => Or.inl ⟨rfl, ?_⟩, fun x h0 h1 => ⟨?_, ?_⟩, fun φ φ' hφ hper i hi => ?_⟩
    · unfold reach
      rw [if_neg (by decide), if_pos rfl]
      exact pcentre_near n p hp c b hfine hs x i hi hx
    · intro i hi
      beta_reduce
      rw [val x i hi]
      split_ifs
      · exact add_nonneg (N_nonneg hm _ _ _) (N_nonneg hm _ _ _)
      · exact N_nonneg hm _ _ _
    · rw [hsz, sum_congr rfl fun i hi => val x i (mem_range.mp hi), sum_wrap n (p - 1) (by omega) fun i => N (periodicKnot ℝ n (p - 1)) (p - 1) i x]
      refine N_sum hm (by rwa [periodicKnot_p]) ?_
      rw [periodicKnot_add n (p - 1) (p - 1) c, periodicKnot_p]
      linarith
    · rw [hsz] at hi
      have hper' := hper (by decide)
      obtain ⟨z, hz⟩ : ∃ z, z = ((i : ℝ) + (1 - p) / 2) / n := ⟨_, rfl⟩
      have v0 : φ (pcentre n p i) = φ z := by unfold pcentre; rw [periodic_fract hper', hz]
      have v1 : φ (pcentre n p ((i + 1) % n)) = φ (z + 1 / n) := by
        unfold pcentre
        rw [periodic_fract hper']
        by_cases hlt : i + 1 < n
        · rw [Nat.mod_eq_of_lt hlt, hz]
          congr 1
          push_cast
          ring
        · have : i + 1 = n := by omega
          rw [this, Nat.mod_self, ← hper', hz]
          have e : (n : ℝ) = (i : ℝ) + 1 := by exact_mod_cast this.symm
          congr 1
          rw [e] at hn' ⊢
          push_cast
          field_simp
          ring
      obtain ⟨y, y1, y2, ye⟩ := mvt (φ := φ) (φ' := fun y => φ' (Int.fract y)) (a := z) (b := z + 1 / n) (by
        have : 0 < 1 / (n : ℝ) := by positivity
        linarith) fun x _ _ => periodic_deriv hper' hφ x
      refine ⟨Int.fract y, ⟨Int.fract_nonneg _, (Int.fract_lt_one _).le⟩, ?_, fun x h0 h1 hx => Or.inl ⟨rfl, ?_⟩⟩
      · rw [v0, v1, ye]
        ring
      · beta_reduce at hx
        rw [val x i hi] at hx
        have cases : N (periodicKnot ℝ n (p - 1)) (p - 1) i x ≠ 0 ∨ N (periodicKnot ℝ n (p - 1)) (p - 1) (n + i) x ≠ 0 := by
          by_contra hc
          push Not at hc
          refine hx ?_
          rw [hc.1, hc.2]
          simp
        unfold reach
        rw [if_neg (by decide), if_pos rfl]
        obtain ⟨k, hk⟩ := pcentre_near' n (p - 1) c x i cases
        have e : (((p - 1 : Nat) : ℝ)) = (p : ℝ) - 1 := by rw [Nat.cast_sub hp, Nat.cast_one]
        have fr : pcentre n (p - 1) i = z + 1 / n / 2 - ⌊((i : ℝ) + (1 - ((p - 1 : Nat) : ℝ)) / 2) / n⌋ := by
          unfold pcentre Int.fract
          rw [hz, e]
          congr 1
          field_simp
          ring
        refine ⟨k - ⌊((i : ℝ) + (1 - ((p - 1 : Nat) : ℝ)) / 2) / n⌋ + ⌊y⌋, ?_⟩
        rw [fr, e] at hk
        rw [e]
        have fy : Int.fract y = y - ⌊y⌋ := rfl
        rw [fy]
        push_cast
        have hb : ((p : ℝ) - 1 + 1) / (2 * n) + 1 / n / 2 = ((p : ℝ) + 1) / (2 * n) := by field_simp; ring
        have hk' := abs_le.mp hk
        rw [abs_le]
        constructor <;> linarith
  · have ht : d.type = "constant" := by
      have h1 := (Form.spline_mk?_ok hs).2.2
      unfold DerivativeSpline.mk? at hd
      simp only at hd
      rw [if_neg (by rw [h1]; simp)] at hd
      split at hd
      · cases hd
      · cases hd; exact h1
    have val : ∀ x (i : Nat), d.evaluate x (i : Int) = 1 := by
      intro x i
      unfold DerivativeSpline.evaluate
      rw [ht, if_neg (by decide), if_neg (by decide)]
    have near : ∀ x y : ℝ, 0 ≤ x → x ≤ 1 → 0 ≤ y → y ≤ 1 → NearDir "constant" (reach 1 p "constant") x y := by
      intro x y a b c d
      refine Or.inr ⟨by decide, ?_⟩
      unfold reach
      rw [if_neg (by decide), if_neg (by decide), abs_le]
      constructor <;> linarith
    refine ⟨fun _ => 0, fun _ => 1, fun _ => ⟨le_rfl, zero_le_one⟩, fun hc => absurd hc (by decide),
      fun i hi x h0 h1 _ => near x 0 h0 h1 le_rfl zero_le_one, fun x h0 h1 => ⟨?_, ?_⟩, fun φ φ' hφ hper i hi => ?_⟩
    · intro i _
      rw [val]; norm_num
    · rw [show Form.dsize 1 "constant" = 1 from rfl]
      simp [val]
    · obtain ⟨y, y1, y2, ye⟩ := mvt (φ := φ) (φ' := φ') (a := 0) (b := 1) one_pos hφ
      refine ⟨y, ⟨y1, y2⟩, ?_, fun x h0 h1 _ => near x y h0 h1.le y1 y2⟩
      have := hper (by decide) 0
      rw [zero_add] at this
      rw [this, sub_self, sub_zero] at ye
      simpa using ye

/-- Triple convex combinations. -/
theorem triple_close {n0 n1 n2 : Nat} {w0 w1 w2 : Nat → ℝ} (h0 : ∀ i < n0, 0 ≤ w0 i) (s0 : ∑ i ∈ range n0, w0 i = 1)
    (h1 : ∀ i < n1, 0 ≤ w1 i) (s1 : ∑ i ∈ range n1, w1 i = 1) (h2 : ∀ i < n2, 0 ≤ w2 i) (s2 : ∑ i ∈ range n2, w2 i = 1)
    (T : Nat → Nat → Nat → ℝ) (a ε : ℝ)
    (hT : ∀ i < n0, ∀ j < n1, ∀ l < n2, w0 i ≠ 0 → w1 j ≠ 0 → w2 l ≠ 0 → |a - T i j l| ≤ ε) :
    |a - ∑ i ∈ range n0, ∑ j ∈ range n1, ∑ l ∈ range n2, T i j l * (w0 i * w1 j * w2 l)| ≤ ε := by
  have e : ∑ i ∈ range n0, ∑ j ∈ range n1, ∑ l ∈ range n2, T i j l * (w0 i * w1 j * w2 l)
      = ∑ i ∈ range n0, (∑ j ∈ range n1, (∑ l ∈ range n2, T i j l * w2 l) * w1 j) * w0 i := by
    refine sum_congr rfl fun i _ => ?_
    rw [sum_mul]
    refine sum_congr rfl fun j _ => ?_
    rw [sum_mul, sum_mul]
    exact sum_congr rfl fun l _ => by ring
  rw [e]
  refine convex_close h0 s0 _ _ _ fun i hi hi0 => ?_
  refine convex_close h1 s1 _ _ _ fun j hj hj0 => ?_
  refine convex_close h2 s2 _ _ _ fun l hl hl0 => ?_
  exact hT i hi j hj l hl hi0 hj0 hl0

section
variable {ns ps : Nat × Nat × Nat} {q : Nat} {types : String × String × String} {F : V3 → V3} {polar dirichlet : Bool} {D : DeRham}

/-- **C101** Gradients (no polar axis, sizes for which `strong_grad` is the gradient): if the three logical partial derivatives of `f` vary by at most `ε`
within the resolution, then the components of the discrete gradient of some discrete function (satisfying the boundary condition
if `f` does) are within `ε` of them, and the function itself is as close to `f` as `f` varies within the resolution. -/
theorem C101_gradient_approx (h : Admissible ns ps q types F false dirichlet D) (hc : Compatible ns types dirichlet)
    (f : ℝ × ℝ × ℝ → ℝ) (g : Nat → ℝ × ℝ × ℝ → ℝ) (ε : ℝ)
    (hd : ∀ dir < 3, ∀ x : ℝ × ℝ × ℝ, InCube x → HasPartial f dir (g dir x) x)
    (hper : ∀ r t z, f (r, t + 1, z) = f (r, t, z) ∧ f (r, t, z + 1) = f (r, t, z))
    (hg : ∀ dir < 3, ∀ x y, InCube x → InCube y → Near3 ns ps types x y → |g dir x - g dir y| ≤ ε)
    (hbc : dirichlet = true → ∀ x, InCube x → x.1 = 0 ∨ x.1 = 1 → f x = 0) :
    ∃ u : Fin D.m0 → ℝ, (∀ x, InOpenCube x → ∀ c : Fin 3, |g c x - D.form1 (D.strongGrad *ᵥ u) (toV3 x) c| ≤ ε) ∧
      ∀ δ, (∀ x y, InCube x → InCube y → Near3 ns ps types x y → |f x - f y| ≤ δ) → ∀ x, InCube x → |f x - D.phys0 u (toV3 x) 0| ≤ δ := by
  obtain ⟨m0, m1, _, _, hQ⟩ := Seq.mk?_inv (Admissible.seq h.built)
  obtain ⟨hk, hd0, s0, s1, s2, d0, d1, d2⟩ := Form.mk?_inv m0
  obtain ⟨hk1, hd1, s0', s1', s2', d0', d1', d2'⟩ := Form.mk?_inv m1
  obtain ⟨ξ, α, ξm, ξe, ξn, ξw, ξv⟩ := dir_grad h.r s0 d0
  obtain ⟨η, β, ηm, _, ηn, ηw, ηv⟩ := dir_grad h.t s1 d1
  obtain ⟨ζ, γ, ζm, _, ζn, ζw, ζv⟩ := dir_grad h.z s2 d2
  have cube : ∀ i j l, InCube (ξ i, η j, ζ l) := fun i j l => ⟨ξm i, ηm j, ζm l⟩
  obtain ⟨C, hC⟩ : ∃ C : Nat → Nat → Nat → ℝ, C = fun i j l => f (ξ i, η j, ζ l) := ⟨_, rfl⟩
  obtain ⟨u, hu⟩ := zeroform_coef h C (fun hp => absurd hp (by decide)) (fun _ hdir j hj l hl => by
    rw [hC]
    exact ⟨hbc hdir _ (cube _ _ _) (Or.inl (ξe hc.r).1), hbc hdir _ (cube _ _ _) (Or.inr (ξe hc.r).2)⟩)
  have U0 := DirOK.unity h.r
  have U1 := DirOK.unity h.t
  have U2 := DirOK.unity h.z
  refine ⟨u, fun x hx => ?_, fun δ hδ x hx => ?_⟩
  · have k0 : D.S.L0.dims.k = 0 := by rw [hd0]
    have k1 : D.S.L1.dims.k = 1 := by rw [hd1]
    have hlen : D.S.L1.dims.shape.length = 3 := by simp [Dims.shape, k1]
    have E0 : D.S.L1.Λ0 = D.S.L0.Λ0 := Except.ok.inj (s0'.symm.trans s0)
    have E1 : D.S.L1.Λ1 = D.S.L0.Λ1 := Except.ok.inj (s1'.symm.trans s1)
    have E2 : D.S.L1.Λ2 = D.S.L0.Λ2 := Except.ok.inj (s2'.symm.trans s2)
    rw [E0] at d0'
    rw [E1] at d1'
    rw [E2] at d2'
    have G0 : D.S.L1.dΛ0 = D.S.L0.dΛ0 := Except.ok.inj (d0'.symm.trans d0)
    have G1 : D.S.L1.dΛ1 = D.S.L0.dΛ1 := Except.ok.inj (d1'.symm.trans d1)
    have G2 : D.S.L1.dΛ2 = D.S.L0.dΛ2 := Except.ok.inj (d2'.symm.trans d2)
    have hinc := (C76_operators_are_incidence h hc).1 u
    have nr : D.S.L0.dims.nr = ns.1 := by rw [hd0]
    have nt : D.S.L0.dims.nt = ns.2.1 := by rw [hd0]
    have nz : D.S.L0.dims.nz = ns.2.2 := by rw [hd0]
    have p0 : 0 < ns.1 := by rcases h.r with ⟨_, a, b, _⟩ | ⟨_, _, _, a, _⟩ | ⟨_, a, _⟩ <;> omega
    have p1 : 0 < ns.2.1 := by rcases h.t with ⟨_, a, b, _⟩ | ⟨_, _, _, a, _⟩ | ⟨_, a, _⟩ <;> omega
    have p2 : 0 < ns.2.2 := by rcases h.z with ⟨_, a, b, _⟩ | ⟨_, _, _, a, _⟩ | ⟨_, a, _⟩ <;> omega
    have hxc : InCube x := ⟨⟨hx.1.1, hx.1.2.le⟩, ⟨hx.2.1.1, hx.2.1.2.le⟩, ⟨hx.2.2.1, hx.2.2.2.le⟩⟩
    have le0 : Form.dsize ns.1 types.1 ≤ ns.1 := by unfold Form.dsize; split_ifs <;> omega
    have le1 : Form.dsize ns.2.1 types.2.1 ≤ ns.2.1 := by unfold Form.dsize; split_ifs <;> omega
    have le2 : Form.dsize ns.2.2 types.2.2 ≤ ns.2.2 := by unfold Form.dsize; split_ifs <;> omega
    obtain ⟨w0, u0⟩ := ξw x.1 hx.1.1 hx.1.2
    obtain ⟨w1, u1⟩ := ηw x.2.1 hx.2.1.1 hx.2.1.2
    obtain ⟨w2, u2⟩ := ζw x.2.2 hx.2.2.1 hx.2.2.2
    have val : ∀ c : Fin 3, D.form1 (D.strongGrad *ᵥ u) (toV3 x) c = ∑ i ∈ range (D.S.L1.dims.cshape c).1, ∑ j ∈ range (D.S.L1.dims.cshape c).2.1,
        ∑ l ∈ range (D.S.L1.dims.cshape c).2.2, extDeriv D.S.L0.dims (coef D.S.L0.dims (D.E0ᵀ *ᵥ u)) c i j l * basisValue D.S.L1 c x i j l := by
      intro c
      unfold form1
      rw [fromV3_toV3, discreteFunction_eq_sum _ (Form.mk?_wf m1) _ _ x c (by rw [hlen]; exact c.isLt)]
      exact sum_congr rfl fun i hi => sum_congr rfl fun j hj => sum_congr rfl fun l hl => by
        rw [hinc c i j l ⟨mem_range.mp hi, mem_range.mp hj, mem_range.mp hl⟩]
    intro c
    rw [val c]
    fin_cases c
    · have cs : D.S.L1.dims.cshape 0 = (Form.dsize ns.1 types.1, ns.2.1, ns.2.2) := by
        simp only [Dims.cshape, Dims.shape, k1]
        rw [hd1]
        rfl
      have ex : ∀ i j l, ∃ y, i < Form.dsize ns.1 types.1 → (0 ≤ y ∧ y ≤ 1) ∧ C ((i + 1) % ns.1) j l - C i j l = g 0 (y, η j, ζ l) * α i ∧
          ∀ x, 0 ≤ x → x < 1 → α i * D.S.L0.dΛ0.evaluate x (i : Int) ≠ 0 → NearDir types.1 (reach ns.1 ps.1 types.1) x y := by
        intro i j l
        by_cases hi : i < Form.dsize ns.1 types.1
        · obtain ⟨y, hy⟩ := ξv (fun t => f (t, η j, ζ l)) (fun t => g 0 (t, η j, ζ l))
            (fun t t0 t1 => hd 0 (by norm_num) (t, η j, ζ l) ⟨⟨t0, t1⟩, ηm j, ζm l⟩) (fun hne => absurd hc.r hne) i hi
          refine ⟨y, fun _ => ⟨hy.1, ?_, hy.2.2⟩⟩
          rw [hC]
          exact hy.2.1
        · exact ⟨0, fun hh => absurd hh hi⟩
      choose Y hY using ex
      have e : ∑ i ∈ range (D.S.L1.dims.cshape 0).1, ∑ j ∈ range (D.S.L1.dims.cshape 0).2.1, ∑ l ∈ range (D.S.L1.dims.cshape 0).2.2,
          extDeriv D.S.L0.dims (coef D.S.L0.dims (D.E0ᵀ *ᵥ u)) 0 i j l * basisValue D.S.L1 0 x i j l
          = ∑ i ∈ range (Form.dsize ns.1 types.1), ∑ j ∈ range ns.2.1, ∑ l ∈ range ns.2.2, g 0 (Y i j l, η j, ζ l) *
            ((α i * D.S.L0.dΛ0.evaluate x.1 i) * D.S.L0.Λ1.evaluate x.2.1 j * D.S.L0.Λ2.evaluate x.2.2 l) := by
        rw [cs]
        refine sum_congr rfl fun i hi => sum_congr rfl fun j hj => sum_congr rfl fun l hl => ?_
        have hi' := mem_range.mp hi
        have hj' := mem_range.mp hj
        have hl' := mem_range.mp hl
        unfold extDeriv Δr
        rw [if_pos k0, if_pos rfl, nr, hu _ (Nat.mod_lt _ p0) j hj' l hl', hu i (by omega) j hj' l hl', (hY i j l hi').2.1]
        simp only [basisValue, factor, k1, isDeriv, E0, E1, E2, G0, G1, G2]
        simp
        ring
      refine (congrArg (fun S => |g 0 x - S|) e).trans_le ?_
      refine triple_close w0 u0 (fun j hj => U1.nonneg s1 _ hxc.2.1.1 hxc.2.1.2 j hj) (U1.sum s1 _ hxc.2.1.1 hxc.2.1.2)
        (fun l hl => U2.nonneg s2 _ hxc.2.2.1 hxc.2.2.2 l hl) (U2.sum s2 _ hxc.2.2.1 hxc.2.2.2) _ _ _ fun i hi j hj l hl hi0 hj0 hl0 => ?_
      obtain ⟨y1, _, y2⟩ := hY i j l hi
      exact hg 0 (by norm_num) x _ hxc ⟨y1, ηm j, ζm l⟩ ⟨y2 _ hx.1.1 hx.1.2 hi0, ηn j hj _ hxc.2.1.1 hxc.2.1.2 hj0, ζn l hl _ hxc.2.2.1 hxc.2.2.2 hl0⟩
    · have cs : D.S.L1.dims.cshape 1 = (ns.1, Form.dsize ns.2.1 types.2.1, ns.2.2) := by
        simp only [Dims.cshape, Dims.shape, k1]
        rw [hd1]
        rfl
      have ex : ∀ i j l, ∃ y, j < Form.dsize ns.2.1 types.2.1 → (0 ≤ y ∧ y ≤ 1) ∧ C i ((j + 1) % ns.2.1) l - C i j l = g 1 (ξ i, y, ζ l) * β j ∧
          ∀ x, 0 ≤ x → x < 1 → β j * D.S.L0.dΛ1.evaluate x (j : Int) ≠ 0 → NearDir types.2.1 (reach ns.2.1 ps.2.1 types.2.1) x y := by
        intro i j l
        by_cases hj : j < Form.dsize ns.2.1 types.2.1
        · obtain ⟨y, hy⟩ := ηv (fun t => f (ξ i, t, ζ l)) (fun t => g 1 (ξ i, t, ζ l))
            (fun t t0 t1 => hd 1 (by norm_num) (ξ i, t, ζ l) ⟨ξm i, ⟨t0, t1⟩, ζm l⟩) (fun _ t => (hper _ t _).1) j hj
          refine ⟨y, fun _ => ⟨hy.1, ?_, hy.2.2⟩⟩
          rw [hC]
          exact hy.2.1
        · exact ⟨0, fun hh => absurd hh hj⟩
      choose Y hY using ex
      have e : ∑ i ∈ range (D.S.L1.dims.cshape 1).1, ∑ j ∈ range (D.S.L1.dims.cshape 1).2.1, ∑ l ∈ range (D.S.L1.dims.cshape 1).2.2,
          extDeriv D.S.L0.dims (coef D.S.L0.dims (D.E0ᵀ *ᵥ u)) 1 i j l * basisValue D.S.L1 1 x i j l
          = ∑ i ∈ range ns.1, ∑ j ∈ range (Form.dsize ns.2.1 types.2.1), ∑ l ∈ range ns.2.2, g 1 (ξ i, Y i j l, ζ l) *
            (D.S.L0.Λ0.evaluate x.1 i * (β j * D.S.L0.dΛ1.evaluate x.2.1 j) * D.S.L0.Λ2.evaluate x.2.2 l) := by
        rw [cs]
        refine sum_congr rfl fun i hi => sum_congr rfl fun j hj => sum_congr rfl fun l hl => ?_
        have hi' := mem_range.mp hi
        have hj' := mem_range.mp hj
        have hl' := mem_range.mp hl
        unfold extDeriv Δt
        rw [if_pos k0, if_neg (by norm_num), if_pos rfl, nt, hu i hi' _ (Nat.mod_lt _ p1) l hl', hu i hi' j (by omega) l hl', (hY i j l hj').2.1]
        simp only [basisValue, factor, k1, isDeriv, E0, E1, E2, G0, G1, G2]
        simp
        ring
      refine (congrArg (fun S => |g 1 x - S|) e).trans_le ?_
      refine triple_close (fun j hj => U0.nonneg s0 _ hxc.1.1 hxc.1.2 j hj) (U0.sum s0 _ hxc.1.1 hxc.1.2) w1 u1
        (fun l hl => U2.nonneg s2 _ hxc.2.2.1 hxc.2.2.2 l hl) (U2.sum s2 _ hxc.2.2.1 hxc.2.2.2) _ _ _ fun i hi j hj l hl hi0 hj0 hl0 => ?_
      obtain ⟨y1, _, y2⟩ := hY i j l hj
      exact hg 1 (by norm_num) x _ hxc ⟨ξm i, y1, ζm l⟩ ⟨ξn i hi _ hxc.1.1 hxc.1.2 hi0, y2 _ hx.2.1.1 hx.2.1.2 hj0, ζn l hl _ hxc.2.2.1 hxc.2.2.2 hl0⟩
    · have cs : D.S.L1.dims.cshape 2 = (ns.1, ns.2.1, Form.dsize ns.2.2 types.2.2) := by
        simp only [Dims.cshape, Dims.shape, k1]
        rw [hd1]
        rfl
      have ex : ∀ i j l, ∃ y, l < Form.dsize ns.2.2 types.2.2 → (0 ≤ y ∧ y ≤ 1) ∧ C i j ((l + 1) % ns.2.2) - C i j l = g 2 (ξ i, η j, y) * γ l ∧
          ∀ x, 0 ≤ x → x < 1 → γ l * D.S.L0.dΛ2.evaluate x (l : Int) ≠ 0 → NearDir types.2.2 (reach ns.2.2 ps.2.2 types.2.2) x y := by
        intro i j l
        by_cases hl : l < Form.dsize ns.2.2 types.2.2
        · obtain ⟨y, hy⟩ := ζv (fun t => f (ξ i, η j, t)) (fun t => g 2 (ξ i, η j, t))
            (fun t t0 t1 => hd 2 (by norm_num) (ξ i, η j, t) ⟨ξm i, ηm j, ⟨t0, t1⟩⟩) (fun _ t => (hper _ _ t).2) l hl
          refine ⟨y, fun _ => ⟨hy.1, ?_, hy.2.2⟩⟩
          rw [hC]
          exact hy.2.1
        · exact ⟨0, fun hh => absurd hh hl⟩
      choose Y hY using ex
      have e : ∑ i ∈ range (D.S.L1.dims.cshape 2).1, ∑ j ∈ range (D.S.L1.dims.cshape 2).2.1, ∑ l ∈ range (D.S.L1.dims.cshape 2).2.2,
          extDeriv D.S.L0.dims (coef D.S.L0.dims (D.E0ᵀ *ᵥ u)) 2 i j l * basisValue D.S.L1 2 x i j l
          = ∑ i ∈ range ns.1, ∑ j ∈ range ns.2.1, ∑ l ∈ range (Form.dsize ns.2.2 types.2.2), g 2 (ξ i, η j, Y i j l) *
            (D.S.L0.Λ0.evaluate x.1 i * D.S.L0.Λ1.evaluate x.2.1 j * (γ l * D.S.L0.dΛ2.evaluate x.2.2 l)) := by
        rw [cs]
        refine sum_congr rfl fun i hi => sum_congr rfl fun j hj => sum_congr rfl fun l hl => ?_
        have hi' := mem_range.mp hi
        have hj' := mem_range.mp hj
        have hl' := mem_range.mp hl
        unfold extDeriv Δz
        rw [if_pos k0, if_neg (by norm_num), if_neg (by norm_num), nz, hu i hi' j hj' _ (Nat.mod_lt _ p2), hu i hi' j hj' l (by omega), (hY i j l hl').2.1]
        simp only [basisValue, factor, k1, isDeriv, E0, E1, E2, G0, G1, G2]
        simp
        ring
      refine (congrArg (fun S => |g 2 x - S|) e).trans_le ?_
      refine triple_close (fun j hj => U0.nonneg s0 _ hxc.1.1 hxc.1.2 j hj) (U0.sum s0 _ hxc.1.1 hxc.1.2)
        (fun j hj => U1.nonneg s1 _ hxc.2.1.1 hxc.2.1.2 j hj) (U1.sum s1 _ hxc.2.1.1 hxc.2.1.2) w2 u2 _ _ _ fun i hi j hj l hl hi0 hj0 hl0 => ?_
      obtain ⟨y1, _, y2⟩ := hY i j l hl
      exact hg 2 (by norm_num) x _ hxc ⟨ξm i, ηm j, y1⟩ ⟨ξn i hi _ hxc.1.1 hxc.1.2 hi0, ηn j hj _ hxc.2.1.1 hxc.2.1.2 hj0, y2 _ hx.2.2.1 hx.2.2.2 hl0⟩
  · rw [zeroform_value' h]
    have e : ∑ i ∈ range ns.1, ∑ j ∈ range ns.2.1, ∑ l ∈ range ns.2.2, coef D.S.L0.dims (D.E0ᵀ *ᵥ u) 0 i j l
        * (D.S.L0.Λ0.evaluate x.1 i * D.S.L0.Λ1.evaluate x.2.1 j * D.S.L0.Λ2.evaluate x.2.2 l)
        = ∑ i ∈ range ns.1, ∑ j ∈ range ns.2.1, ∑ l ∈ range ns.2.2, C i j l
        * (D.S.L0.Λ0.evaluate x.1 i * D.S.L0.Λ1.evaluate x.2.1 j * D.S.L0.Λ2.evaluate x.2.2 l) :=
      sum_congr rfl fun i hi => sum_congr rfl fun j hj => sum_congr rfl fun l hl => by
        rw [hu i (mem_range.mp hi) j (mem_range.mp hj) l (mem_range.mp hl)]
    rw [e]
    refine triple_close (fun i hi => U0.nonneg s0 _ hx.1.1 hx.1.2 i hi) (U0.sum s0 _ hx.1.1 hx.1.2)
      (fun j hj => U1.nonneg s1 _ hx.2.1.1 hx.2.1.2 j hj) (U1.sum s1 _ hx.2.1.1 hx.2.1.2)
      (fun l hl => U2.nonneg s2 _ hx.2.2.1 hx.2.2.2 l hl) (U2.sum s2 _ hx.2.2.1 hx.2.2.2) C _ _ fun i hi j hj l hl hi0 hj0 hl0 => ?_
    rw [hC]
    exact hδ x _ hx (cube i j l) ⟨ξn i hi _ hx.1.1 hx.1.2 hi0, ηn j hj _ hx.2.1.1 hx.2.1.2 hj0, ζn l hl _ hx.2.2.1 hx.2.2.2 hl0⟩

/-- **C101** Error bound for the scalar Poisson problem on a domain without polar axis: `φ` is the exact solution (periodic in the angles, zero on the
two radial boundaries) with logical partial derivatives `g`, `κ` bounds `|DF⁻ᵀ e|² / |e|²` at the quadrature points and the weak equation holds for
`φ` up to `√K` times the energy norm (quadrature error). The squared energy error of the computed solution is at most `3 κ ε²` times the volume, plus `K`. -/
theorem C101_poisson_error (h : Admissible ns ps q types F false dirichlet D) (hc : Compatible ns types dirichlet) (ty : Toroidal types)
    (hdir : dirichlet = true) (f : V3 → Fin 1 → ℝ) (φ : ℝ × ℝ × ℝ → ℝ) (g : Nat → ℝ × ℝ × ℝ → ℝ) (ε κ K : ℝ) (hκ0 : 0 ≤ κ) (hK : 0 ≤ K)
    (hd : ∀ dir < 3, ∀ x : ℝ × ℝ × ℝ, InCube x → HasPartial φ dir (g dir x) x)
    (hper : ∀ r t z, φ (r, t + 1, z) = φ (r, t, z) ∧ φ (r, t, z + 1) = φ (r, t, z))
    (hg : ∀ dir < 3, ∀ x y, InCube x → InCube y → Near3 ns ps types x y → |g dir x - g dir y| ≤ ε)
    (hbc : ∀ x, InCube x → x.1 = 0 ∨ x.1 = 1 → φ x = 0)
    (hκ : ∀ x ∈ D.S.Q.x, ∀ e : V3, (((jacfwd F (toV3 x))⁻¹)ᵀ *ᵥ e) ⬝ᵥ (((jacfwd F (toV3 x))⁻¹)ᵀ *ᵥ e) ≤ κ * (e ⬝ᵥ e))
    (G : V3 → V3) (hG : ∀ x, InCube x → (jacfwd F (toV3 x))ᵀ *ᵥ G (toV3 x) = fun c : Fin 3 => g c x)
    (hw : ∀ v, (l2Product (D.phys1 (D.strongGrad *ᵥ v)) G D.S.Q F - l2Product (D.phys0 v) f D.S.Q F) ^ 2 ≤
      K * l2Product (D.phys1 (D.strongGrad *ᵥ v)) (D.phys1 (D.strongGrad *ᵥ v)) D.S.Q F) :
    l2Product (fun x => G x - D.phys1 (D.strongGrad *ᵥ D.poisson0 f) x) (fun x => G x - D.phys1 (D.strongGrad *ᵥ D.poisson0 f) x) D.S.Q F
      ≤ 3 * κ * ε ^ 2 * quadVolume D F + K := by
  obtain ⟨u, hu, _⟩ := C101_gradient_approx h hc φ g ε hd hper hg (fun _ => hbc)
  refine (C101_poisson_quasi_best h ty hdir (fun hp => absurd hp (by decide)) f G K hK hw u).trans ?_
  have b := l2_le_at_points h (fun x => G x - D.phys1 (D.strongGrad *ᵥ u) x) (3 * κ * ε ^ 2) fun j hj => by
    obtain ⟨_, _, _, i1, i2, _, _⟩ := h.metricAt hj
    have hx := (h.pointAt hj).2
    have hxo := points_in_open_cube h _ hx
    have hxc : InCube (D.S.point j) := ⟨⟨hxo.1.1, hxo.1.2.le⟩, ⟨hxo.2.1.1, hxo.2.1.2.le⟩, ⟨hxo.2.2.1, hxo.2.2.2.le⟩⟩
    have xe : D.x j = toV3 (D.S.point j) := rfl
    obtain ⟨A, hA⟩ : ∃ A, A = jacfwd F (D.x j) := ⟨_, rfl⟩
    have e1 : G (D.x j) - D.phys1 (D.strongGrad *ᵥ u) (D.x j) = (A⁻¹)ᵀ *ᵥ (Aᵀ *ᵥ G (D.x j) - D.form1 (D.strongGrad *ᵥ u) (D.x j)) := by
      rw [h.phys1_eq (D.strongGrad *ᵥ u) hj, mulVec_sub, mulVec_mulVec, ← transpose_mul, hA, i1, transpose_one, one_mulVec]
    beta_reduce
    rw [e1]
    have h2 := sq3 (Aᵀ *ᵥ G (D.x j) - D.form1 (D.strongGrad *ᵥ u) (D.x j)) ε fun k => by
      rw [hA, xe, hG _ hxc]
      exact hu _ hxo k
    have h3 := hκ _ hx (Aᵀ *ᵥ G (D.x j) - D.form1 (D.strongGrad *ᵥ u) (D.x j))
    rw [← xe, ← hA] at h3
    refine h3.trans ?_
    calc _ ≤ κ * (3 * ε ^ 2) := mul_le_mul_of_nonneg_left h2 hκ0
      _ = _ := by ring
  linarith

/-- Non-vacuity: `r (1 - r)` (source 2) with 102 quadratic splines in the radius; `K` is the quadrature error of the weak equation. -/
example : ∃ D, Admissible (102, 102, 1) (2, 2, 0) 3 ("clamped", "periodic", "constant") (fun y => y) false true D ∧ ∃ K, 0 ≤ K ∧
    l2Product (fun x => ![1 - 2 * x 0, 0, 0] - D.phys1 (D.strongGrad *ᵥ D.poisson0 (fun _ _ => 2)) x)
      (fun x => ![1 - 2 * x 0, 0, 0] - D.phys1 (D.strongGrad *ᵥ D.poisson0 (fun _ _ => 2)) x) D.S.Q (fun y => y)
      ≤ 3 * 1 * (3 / 100) ^ 2 * quadVolume D (fun y => y) + K := by
  obtain ⟨D, h⟩ := Admissible.exists (ns := (102, 102, 1)) (ps := (2, 2, 0)) (q := 3) (types := ("clamped", "periodic", "constant"))
    (fun y => y) false true (by norm_num) (by unfold DirOK; norm_num) (by unfold DirOK; norm_num) (by unfold DirOK; norm_num)
    (by intro h; cases h) fun x => by rw [jacobianDeterminant_id]; norm_num
  have hc : Compatible (102, 102, 1) ("clamped", "periodic", "constant") true :=
    ⟨rfl, by decide, by decide, by norm_num, Or.inl rfl⟩
  have ty : Toroidal ("clamped", "periodic", "constant") := ⟨rfl, by decide, by decide⟩
  have jid : ∀ x, jacfwd (fun y : V3 => y) x = 1 := fun x => by
    have := jacfwd_mulVec 1 x
    simpa only [one_mulVec] using this
  obtain ⟨K, hK, hw, _⟩ := C101_consistency_error h ty rfl (fun hp => by cases hp) (fun _ _ => 2) (fun x => ![1 - 2 * x 0, 0, 0])
  refine ⟨D, h, K, hK, C101_poisson_error h hc ty rfl (fun _ _ => 2) (fun x => x.1 * (1 - x.1)) (fun dir x => if dir = 0 then 1 - 2 * x.1 else 0)
    (3 / 100) 1 K zero_le_one hK ?_ (fun _ _ _ => ⟨rfl, rfl⟩) ?_ ?_ ?_ (fun x => ![1 - 2 * x 0, 0, 0]) ?_ hw⟩
  · intro dir hdir x _
    unfold HasPartial line coord
    interval_cases dir
    · simp only [if_true]
      have h1 : HasDerivAt (fun y : ℝ => y * (1 - y)) (1 * (1 - x.1) + x.1 * (0 - 1)) x.1 :=
        (hasDerivAt_id x.1).mul ((hasDerivAt_const _ _).sub (hasDerivAt_id x.1))
      convert h1 using 1
      ring
    · simpa using hasDerivAt_const x.2.1 (x.1 * (1 - x.1))
    · simpa using hasDerivAt_const x.2.2 (x.1 * (1 - x.1))
  · intro dir hdir x y _ _ hn
    rcases hn.1 with ⟨hc, _⟩ | ⟨_, hn⟩
    · exact absurd hc (by decide)
    · have hr : reach 102 2 "clamped" = 3 / 200 := by
        unfold reach
        rw [if_pos rfl]
        norm_num
      rw [hr, abs_le] at hn
      beta_reduce
      split_ifs
      · rw [abs_le]; constructor <;> linarith
      · norm_num
  · intro x _ hx
    rcases hx with e | e <;> simp [e]
  · intro x _ e
    rw [jid]
    simp
  · intro x _
    rw [jid]
    simp only [transpose_one, one_mulVec]
    funext c
    fin_cases c <;> simp [toV3]

end

end Mrx.Props
