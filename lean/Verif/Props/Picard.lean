import Verif.Props.Solvers
import Mathlib.Analysis.Seminorm
import Mathlib.Analysis.InnerProductSpace.PiL2
import Mathlib.Analysis.SpecificLimits.Basic

/-!
# C82: convergence of `picard_solver` for contractions

`picard_solver` damps its steps by `clip(|f(z) - z| / (|z - z_prev| + 1e-12), 0, 1)`. For contractions the damping cannot stop the
iteration before the tolerance is reached.
-/

set_option linter.unusedSectionVars false
set_option linter.unusedVariables false

namespace Mrx.Props
open Spec Matrix

/-- The norm argument of `picard_solver` computing a seminorm (an exact one, e.g. `sqrt(x @ M @ x)`). -/
noncomputable def normOf {n : Nat} (p : Seminorm ℝ (Fin n → ℝ)) (x : Fin n → ℝ) : FV := .fin (p x)

/-- `jnp.linalg.norm` as a seminorm. -/
noncomputable def euclidSeminorm (n : Nat) : Seminorm ℝ (Fin n → ℝ) :=
  (normSeminorm ℝ (EuclideanSpace ℝ (Fin n))).comp ((WithLp.linearEquiv 2 ℝ (Fin n → ℝ)).symm : (Fin n → ℝ) →ₗ[ℝ] EuclideanSpace ℝ (Fin n))

theorem normOf_euclid (n : Nat) : normOf (euclidSeminorm n) = euclid := by
  funext x
  simp only [normOf, euclid, euclidSeminorm, Seminorm.comp_apply, coe_normSeminorm, EuclideanSpace.norm_eq]
  simp

section
variable {n : Nat} {A : Type} {p : Seminorm ℝ (Fin n → ℝ)} {g : (Fin n → ℝ) → Fin n → ℝ} {aux : (Fin n → ℝ) × A → A}

/-- The map handed to `picard_solver`: the next point depends on the point only, the auxiliary value on everything. -/
def withAux (g : (Fin n → ℝ) → Fin n → ℝ) (aux : (Fin n → ℝ) × A → A) (z : (Fin n → ℝ) × A) : (Fin n → ℝ) × A := (g z.1, aux z)

theorem residual_withAux (z : (Fin n → ℝ) × A) : residual (withAux g aux) (normOf p) z = .fin (p (g z.1 - z.1)) := rfl

/-- The invariant of the loop: after `k` iterations. -/
def PicardInv (p : Seminorm ℝ (Fin n → ℝ)) (g : (Fin n → ℝ) → Fin n → ℝ) (q R : ℝ) (k : Nat) (s : PicardState (Fin n → ℝ) A) : Prop :=
  s.i = k ∧ p (g s.z.1 - s.z.1) ≤ q ^ k * R ∧ (k ≠ 0 → p (s.z.1 - s.zPrev.1) ≤ R)

/-- The value of the damping parameter. -/
theorem picardAlpha_value (s : PicardState (Fin n → ℝ) A) (h : s.i ≠ 0) :
    picardAlpha (withAux g aux) (normOf p) s =
      .fin (min (max (p (g s.z.1 - s.z.1) / (p (s.z.1 - s.zPrev.1) + 1e-12)) 0) 1) := by
  have h0 : p (s.z.1 - s.zPrev.1) + 1e-12 ≠ 0 := by
    have := apply_nonneg p (s.z.1 - s.zPrev.1)
    have : (0:ℝ) < 1e-12 := by norm_num
    linarith
  unfold picardAlpha
  rw [if_neg h]
  simp only [normOf, arr_sub, FV.add, FV.div, if_neg h0, FV.clip01]
  rfl

theorem inv_step {L t R : ℝ} (hL0 : 0 ≤ L) (hL : L < 1) (ht : 0 < t) (hR : 0 ≤ R)
    (hg : ∀ x y, p (g x - g y) ≤ L * p (x - y)) {k : Nat} {s : PicardState (Fin n → ℝ) A}
    (hc : t < p (g s.z.1 - s.z.1)) (hI : PicardInv p g (1 - min 1 (t / (R + 1e-12)) * (1 - L)) R k s) :
    PicardInv p g (1 - min 1 (t / (R + 1e-12)) * (1 - L)) R (k + 1) (picardBody (withAux g aux) (normOf p) s) := by
  obtain ⟨hi, hr, hd⟩ := hI
  have he : (0:ℝ) < 1e-12 := by norm_num
  obtain ⟨a, ha⟩ : ∃ a, a = min 1 (t / (R + 1e-12)) := ⟨_, rfl⟩
  rw [← ha] at hr ⊢
  have ha0 : 0 ≤ a := by rw [ha]; exact le_min zero_le_one (by positivity)
  have ha1 : a ≤ 1 := by rw [ha]; exact min_le_left _ _
  have hq0 : 0 ≤ 1 - a * (1 - L) := by nlinarith
  have hq1 : 1 - a * (1 - L) ≤ 1 := by nlinarith
  have hrR : p (g s.z.1 - s.z.1) ≤ R := hr.trans (mul_le_of_le_one_left hR (pow_le_one₀ hq0 hq1))
  obtain ⟨al, h1, h2, e⟩ : ∃ al : ℝ, a ≤ al ∧ al ≤ 1 ∧ picardAlpha (withAux g aux) (normOf p) s = .fin al := by
    by_cases h : s.i = 0
    · exact ⟨1, ha1, le_refl _, by unfold picardAlpha; rw [if_pos h]⟩
    · refine ⟨_, ?_, min_le_right _ _, picardAlpha_value s h⟩
      have hd' := hd (by rintro rfl; exact h (by simpa using hi))
      have hd0 := apply_nonneg p (s.z.1 - s.zPrev.1)
      refine le_min (le_max_of_le_left ?_) ha1
      rw [ha]
      refine (min_le_right _ _).trans ?_
      exact div_le_div₀ (by linarith) hc.le (by linarith) (by linarith)
  have hz : (picardBody (withAux g aux) (normOf p) s).z.1 = al • g s.z.1 + (1 - al) • s.z.1 := by
    change Arr.mix (picardAlpha (withAux g aux) (normOf p) s) (g s.z.1) s.z.1 = _
    rw [e, arr_mix]
  have al0 : 0 ≤ al := ha0.trans h1
  refine ⟨?_, ?_, fun _ => ?_⟩
  · change s.i + 1 = _
    rw [hi]; push_cast; rfl
  · rw [hz]
    obtain ⟨y, hy⟩ : ∃ y, y = al • g s.z.1 + (1 - al) • s.z.1 := ⟨_, rfl⟩
    rw [← hy]
    have e1 : g y - y = (g y - g s.z.1) + (1 - al) • (g s.z.1 - s.z.1) := by
      rw [hy]; module
    have e2 : y - s.z.1 = al • (g s.z.1 - s.z.1) := by rw [hy]; module
    have b1 : p (g y - g s.z.1) ≤ L * (al * p (g s.z.1 - s.z.1)) := by
      refine (hg _ _).trans (le_of_eq ?_)
      rw [e2, map_smul_eq_mul, Real.norm_eq_abs, abs_of_nonneg al0]
    have b2 : p ((1 - al) • (g s.z.1 - s.z.1)) = (1 - al) * p (g s.z.1 - s.z.1) := by
      rw [map_smul_eq_mul, Real.norm_eq_abs, abs_of_nonneg (by linarith)]
    have b3 := map_add_le_add p (g y - g s.z.1) ((1 - al) • (g s.z.1 - s.z.1))
    rw [← e1, b2] at b3
    have hr0 := apply_nonneg p (g s.z.1 - s.z.1)
    have b4 : p (g y - y) ≤ (1 - a * (1 - L)) * p (g s.z.1 - s.z.1) := by
      have : a * (1 - L) ≤ al * (1 - L) := mul_le_mul_of_nonneg_right h1 (by linarith)
      nlinarith
    calc p (g y - y) ≤ (1 - a * (1 - L)) * p (g s.z.1 - s.z.1) := b4
      _ ≤ (1 - a * (1 - L)) * ((1 - a * (1 - L)) ^ k * R) := mul_le_mul_of_nonneg_left hr hq0
      _ = _ := by ring
  · rw [hz]
    have e2 : al • g s.z.1 + (1 - al) • s.z.1 - s.z.1 = al • (g s.z.1 - s.z.1) := by module
    change p (al • g s.z.1 + (1 - al) • s.z.1 - s.z.1) ≤ R
    rw [e2, map_smul_eq_mul, Real.norm_eq_abs, abs_of_nonneg al0]
    have hr0 := apply_nonneg p (g s.z.1 - s.z.1)
    nlinarith

/-- **C82** for every contraction factor `L < 1`, tolerance `t > 0` and bound `R` there is a number of iterations `N` such that, for every
dimension, every seminorm, every map that contracts by `L` (with any auxiliary output), every start whose first residual is at most `R`
and every `max_iter > N`: `picard_solver` returns after at most `N` iterations (so fewer than `max_iter`), with a residual at most `t`, at
a point whose distance from every fixed point is at most `t / (1 - L)`. -/
theorem C82_picard_converges {L t R : ℝ} (hL0 : 0 ≤ L) (hL : L < 1) (ht : 0 < t) (hR : 0 ≤ R) :
    ∃ N : Int, ∀ (n : Nat) (A : Type) (p : Seminorm ℝ (Fin n → ℝ)) (g : (Fin n → ℝ) → Fin n → ℝ) (aux : (Fin n → ℝ) × A → A)
      (z0 : (Fin n → ℝ) × A) (maxIter : Int), (∀ x y, p (g x - g y) ≤ L * p (x - y)) → p (g (g z0.1) - g z0.1) ≤ R → N < maxIter →
      ∃ z res iters, Returns (picardSolver (fun z => (g z.1, aux z)) (.fin t) maxIter (fun x => .fin (p x)) z0) (z, .fin res, iters) ∧
        0 ≤ iters ∧ iters ≤ N ∧ res = p (g z.1 - z.1) ∧ res ≤ t ∧ ∀ xs, g xs = xs → p (z.1 - xs) ≤ t / (1 - L) := by
  obtain ⟨q, hq⟩ : ∃ q, q = 1 - min 1 (t / (R + 1e-12)) * (1 - L) := ⟨_, rfl⟩
  have he : (0:ℝ) < 1e-12 := by norm_num
  have ha0 : 0 < min 1 (t / (R + 1e-12)) := lt_min zero_lt_one (by positivity)
  have ha1 : min 1 (t / (R + 1e-12)) ≤ 1 := min_le_left _ _
  have hq0 : 0 ≤ q := by rw [hq]; nlinarith
  have hq1 : q < 1 := by rw [hq]; nlinarith
  obtain ⟨N, hN⟩ : ∃ N : Nat, q ^ N * R ≤ t := by
    obtain ⟨N, hN⟩ := exists_pow_lt_of_lt_one (show (0:ℝ) < t / (R + 1) by positivity) hq1
    refine ⟨N, ?_⟩
    rw [lt_div_iff₀ (by linarith)] at hN
    have : 0 ≤ q ^ N := by positivity
    nlinarith
  refine ⟨N, fun n A p g aux z0 maxIter hg hstart hmax => ?_⟩
  obtain ⟨z, res, iters, h, h0, _⟩ := C40_picard_terminates (withAux g aux) (.fin t) maxIter (normOf p) z0
  have hit : iters ≤ N := by
    obtain ⟨fuel, s, hs, e⟩ := returns_inv h
    simp only [Prod.mk.injEq] at e
    obtain ⟨_, _, rfl⟩ := e
    obtain ⟨k, hk, hnc, hj⟩ := whileLoop_iterate hs
    have key : ∀ j ≤ k, PicardInv p g q R j ((picardBody (withAux g aux) (normOf p))^[j] ⟨z0, withAux g aux z0, 0⟩) := by
      intro j
      induction j with
      | zero =>
        intro _
        refine ⟨rfl, ?_, fun h => absurd rfl h⟩
        rw [pow_zero, one_mul]
        exact hstart
      | succ j ih =>
        intro hjk
        rw [Function.iterate_succ_apply', hq]
        have hcj := (hj j (by omega)).2
        refine inv_step hL0 hL ht hR hg ?_ (hq ▸ ih (by omega))
        rw [residual_withAux] at hcj
        rcases hcj with h | h
        · exact h
        · exact absurd h (by simp [FV.isnan])
    rw [hk, (key k (le_refl _)).1]
    by_contra hgt
    have hlt : N < k := by omega
    have hcN := (hj N hlt).2
    rw [residual_withAux] at hcN
    rcases hcN with h | h
    · have := (key N hlt.le).2.1
      exact absurd (show t < _ from h) (by linarith)
    · exact absurd h (by simp [FV.isnan])
  have hres := C41_residual_of_returned h
  change res = .fin (p (g z.1 - z.1)) at hres
  have hle : res.le (.fin t) := by
    refine C41_converged_nonexpansive (f := withAux g aux) (norm := normOf p) ?_ h (by omega)
    intro w u hw
    change p (g w.1 - w.1) ≤ u at hw
    change p (g (g w.1) - g w.1) ≤ u
    refine (hg _ _).trans ?_
    have := apply_nonneg p (g w.1 - w.1)
    nlinarith
  rw [hres] at hle h
  change p (g z.1 - z.1) ≤ t at hle
  refine ⟨z, _, iters, h, h0, hit, rfl, hle, fun xs hxs => ?_⟩
  have h1 := hg z.1 xs
  rw [hxs] at h1
  have h2 : p (z.1 - xs) ≤ p (z.1 - g z.1) + p (g z.1 - xs) := by
    have := map_add_le_add p (z.1 - g z.1) (g z.1 - xs)
    rwa [sub_add_sub_cancel] at this
  have h3 : p (z.1 - g z.1) = p (g z.1 - z.1) := map_sub_rev p _ _
  rw [le_div_iff₀ (by linarith)]
  nlinarith

example := C82_picard_converges (L := 1 / 2) (t := 1e-12) (R := 100) (by norm_num) (by norm_num) (by norm_num) (by norm_num)

/-- **C82** with the default norm (`jnp.linalg.norm`): every contraction of `ℝⁿ` is solved to every positive tolerance from every start,
if `max_iter` is large enough, and the result is within `t / (1 - L)` of the unique fixed point. -/
theorem C82_picard_converges_euclid {n : Nat} {A : Type} (g : (Fin n → ℝ) → Fin n → ℝ) (aux : (Fin n → ℝ) × A → A) {L t : ℝ} (hL0 : 0 ≤ L)
    (hL : L < 1) (ht : 0 < t) (hg : ∀ x y, Real.sqrt (∑ i, (g x i - g y i) ^ 2) ≤ L * Real.sqrt (∑ i, (x i - y i) ^ 2))
    (z0 : (Fin n → ℝ) × A) :
    ∃ N : Int, ∀ maxIter > N, ∃ z res iters, Returns (picardSolver (fun z => (g z.1, aux z)) (.fin t) maxIter euclid z0) (z, .fin res, iters) ∧
      iters < maxIter ∧ res ≤ t ∧ ∀ xs, g xs = xs → Real.sqrt (∑ i, (z.1 i - xs i) ^ 2) ≤ t / (1 - L) := by
  have e : ∀ x : Fin n → ℝ, euclidSeminorm n x = Real.sqrt (∑ i, x i ^ 2) := by
    intro x
    have := congrFun (normOf_euclid n) x
    simpa [normOf, euclid] using this
  obtain ⟨N, h⟩ := C82_picard_converges hL0 hL ht (apply_nonneg (euclidSeminorm n) (g (g z0.1) - g z0.1))
  refine ⟨N, fun maxIter hm => ?_⟩
  obtain ⟨z, res, iters, h1, h2, h3, h4, h5, h6⟩ := h n A (euclidSeminorm n) g aux z0 maxIter (by
    intro x y; rw [e, e]; exact hg x y) (le_refl _) hm
  refine ⟨z, res, iters, ?_, by omega, h5, fun xs hxs => ?_⟩
  · have := normOf_euclid n
    unfold normOf at this
    rwa [this] at h1
  · have := h6 xs hxs
    rwa [e] at this

/-- **C82** the first iteration is not damped: with `max_iter = 1` the returned point is `f(f(z_init))` for every map, start, tolerance and
norm (NaN included), whether or not an iteration was made. -/
theorem C82_first_step (f : (Fin n → ℝ) × A → (Fin n → ℝ) × A) (tol : FV) (norm : (Fin n → ℝ) → FV) (z0 : (Fin n → ℝ) × A) :
    ∃ res iters, Returns (picardSolver f tol 1 norm z0) (f (f z0), res, iters) := by
  obtain ⟨z, res, iters, h, h0, h1⟩ := C40_picard_terminates f tol 1 norm z0
  refine ⟨res, iters, ?_⟩
  suffices hz : z = f (f z0) by rw [← hz]; exact h
  obtain ⟨fuel, s, hs, e⟩ := returns_inv h
  simp only [Prod.mk.injEq] at e
  obtain ⟨rfl, _, rfl⟩ := e
  have key := (whileLoop_inv (P := fun s : PicardState (Fin n → ℝ) A => (s.i = 0 ∧ s.z = f z0) ∨ (s.i = 1 ∧ s.z = f (f z0))) (by
    intro s hc hP
    have hlt : s.i < 1 := hc.1
    rcases hP with ⟨hi, hz⟩ | ⟨hi, hz⟩
    · right
      refine ⟨by change s.i + 1 = 1; omega, ?_⟩
      change (Arr.mix (picardAlpha f norm s) (f s.z).1 s.z.1, (f s.z).2) = _
      unfold picardAlpha
      rw [if_pos hi, arr_mix, hz]
      simp
    · omega) (Or.inl ⟨rfl, rfl⟩) hs).1
  rcases key with ⟨hi, hz⟩ | ⟨hi, hz⟩
  · rw [if_pos hi, hz]
  · rw [if_neg (by omega), hz]

end

/-- **C82** the step rule: with `max_iter = 2`, if both iterations are made, the second one moves from `z = f(f(z_init))` towards `f(z)` by
the fraction `min(1, |f(z) - z| / (|z - f(z_init)| + 1e-12))`. -/
theorem C82_damped_step {n : Nat} {A : Type} (g : (Fin n → ℝ) → Fin n → ℝ) (aux : (Fin n → ℝ) × A → A) (t : ℝ)
    (p : Seminorm ℝ (Fin n → ℝ)) (z0 : (Fin n → ℝ) × A) (h1 : t < p (g (g z0.1) - g z0.1)) (h2 : t < p (g (g (g z0.1)) - g (g z0.1))) :
    ∃ a res, Returns (picardSolver (fun z => (g z.1, aux z)) (.fin t) 2 (fun x => .fin (p x)) z0)
      ((g (g z0.1) + min 1 (p (g (g (g z0.1)) - g (g z0.1)) / (p (g (g z0.1) - g z0.1) + 1e-12)) • (g (g (g z0.1)) - g (g z0.1)), a),
        res, 2) := by
  have he : (0:ℝ) < 1e-12 := by norm_num
  let f := withAux g aux
  have hz1 : picardBody f (normOf p) ⟨z0, f z0, 0⟩ = ⟨f z0, f (f z0), 1⟩ := by
    unfold picardBody picardAlpha
    rw [if_pos rfl, arr_mix]
    simp
  obtain ⟨s2, hs2⟩ : ∃ s2, s2 = picardBody f (normOf p) ⟨f z0, f (f z0), 1⟩ := ⟨_, rfl⟩
  have hw : whileLoop (picardCond f (.fin t) 2 (normOf p)) (picardBody f (normOf p)) 3 ⟨z0, f z0, 0⟩ = some s2 := by
    unfold whileLoop
    rw [if_pos ⟨by norm_num, Or.inl h1⟩, hz1]
    unfold whileLoop
    rw [if_pos ⟨by norm_num, Or.inl h2⟩, ← hs2]
    unfold whileLoop
    rw [if_neg]
    rintro ⟨h, _⟩
    rw [hs2] at h
    exact absurd h (by norm_num [picardBody])
  have hr := whileLoop_returns (fun s : PicardState (Fin n → ℝ) A => ((if s.i = 0 then f s.z else s.z),
    residual f (normOf p) (if s.i = 0 then f s.z else s.z), s.i)) hw
  have hi : s2.i = 2 := by rw [hs2]; rfl
  rw [if_neg (by omega), hi] at hr
  refine ⟨s2.z.2, residual f (normOf p) s2.z, ?_⟩
  have hz : s2.z.1 = g (g z0.1) +
      min 1 (p (g (g (g z0.1)) - g (g z0.1)) / (p (g (g z0.1) - g z0.1) + 1e-12)) • (g (g (g z0.1)) - g (g z0.1)) := by
    rw [hs2]
    change Arr.mix (picardAlpha f (normOf p) ⟨f z0, f (f z0), 1⟩) (g (g (g z0.1))) (g (g z0.1)) = _
    rw [picardAlpha_value _ (by norm_num), arr_mix]
    have e1 : max (p (g (g (g z0.1)) - g (g z0.1)) / (p (g (g z0.1) - g z0.1) + 1e-12)) 0 =
        p (g (g (g z0.1)) - g (g z0.1)) / (p (g (g z0.1) - g z0.1) + 1e-12) := by
      refine max_eq_left (div_nonneg (apply_nonneg p _) ?_)
      have := apply_nonneg p (g (g z0.1) - g z0.1)
      linarith
    have e2 : min (max (p (g (f (f z0)).1 - (f (f z0)).1) / (p ((f (f z0)).1 - (f z0).1) + 1e-12)) 0) 1 =
        min 1 (p (g (g (g z0.1)) - g (g z0.1)) / (p (g (g z0.1) - g z0.1) + 1e-12)) := by
      change min (max (p (g (g (g z0.1)) - g (g z0.1)) / (p (g (g z0.1) - g z0.1) + 1e-12)) 0) 1 = _
      rw [e1, min_comm]
    change min (max (p (g (f (f z0)).1 - (f (f z0)).1) / (p ((f (f z0)).1 - (f z0).1) + 1e-12)) 0) 1 • _ + _ = _
    rw [e2]
    module
  rw [← hz]
  exact hr

/-- A contraction satisfying the hypotheses of C82: `x ↦ x / 2 + 1`, with fixed point 2, factor 1/2. -/
example : ∃ N : Int, ∀ maxIter > N, ∃ z res iters,
    Returns (picardSolver (fun z : (Fin 1 → ℝ) × Unit => (one1 (z.1 0 / 2 + 1), ())) (.fin 1e-12) maxIter euclid (one1 100, ()))
      (z, .fin res, iters) ∧ iters < maxIter ∧ res ≤ 1e-12 ∧ |z.1 0 - 2| ≤ 2e-12 := by
  obtain ⟨N, h⟩ := C82_picard_converges_euclid (fun x : Fin 1 → ℝ => one1 (x 0 / 2 + 1)) (fun _ : (Fin 1 → ℝ) × Unit => ())
    (L := 1 / 2) (t := 1e-12) (by norm_num) (by norm_num) (by norm_num) (by
      intro x y
      simp only [one1, Fin.sum_univ_one, Real.sqrt_sq_eq_abs]
      rw [show x 0 / 2 + 1 - (y 0 / 2 + 1) = 1 / 2 * (x 0 - y 0) by ring, abs_mul]
      norm_num) (one1 100, ())
  refine ⟨N, fun m hm => ?_⟩
  obtain ⟨z, res, iters, h1, h2, h3, h4⟩ := h m hm
  refine ⟨z, res, iters, h1, h2, h3, ?_⟩
  have := h4 (one1 2) (by funext i; simp only [one1]; norm_num)
  simp only [one1, Fin.sum_univ_one, Real.sqrt_sq_eq_abs] at this
  refine this.trans (by norm_num)

end Mrx.Props
