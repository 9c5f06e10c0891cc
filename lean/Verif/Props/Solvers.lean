import Verif.Model.Solvers
import Verif.Proofs.Loop
import Verif.Props.Geometry
import Mathlib.Analysis.Convex.Basic

/-!
# C40-C44: `picard_solver`, `newton_solver`, `invert_map`
-/

set_option linter.unusedSectionVars false
set_option linter.unusedVariables false

namespace Mrx.Props
open Spec Matrix

section
variable {X A : Type} [Arr X] (f : X × A → X × A) (tol : FV) (maxIter : Int) (norm : X → FV) (z0 : X × A)

/-- **C40** for every map (no assumption at all, NaN values included), every start, tolerance and iteration limit, `picard_solver`
returns, with an iteration count between 0 and `max_iter` (0 if `max_iter` is negative). -/
theorem C40_picard_terminates : ∃ z res iters, Returns (picardSolver f tol maxIter norm z0) (z, res, iters) ∧
    0 ≤ iters ∧ iters ≤ max maxIter 0 := by
  obtain ⟨r, hr⟩ := whileLoop_terminates (cond := picardCond f tol maxIter norm) (body := picardBody f norm)
    (fun s => (maxIter - s.i).toNat) (by
      intro s hs
      have : s.i < maxIter := hs.1
      simp only [picardBody]
      omega) ⟨z0, f z0, 0⟩
  have hi := (whileLoop_inv (P := fun s : PicardState X A => 0 ≤ s.i ∧ s.i ≤ max maxIter 0) (by
    intro s hc ⟨h1, h2⟩
    have : s.i < maxIter := hc.1
    simp only [picardBody]
    omega) (by simp) hr).1
  exact ⟨_, _, _, whileLoop_returns _ hr, hi⟩

variable {f tol maxIter norm z0}

/-- **C41** the reported residual is always that of the returned iterate. -/
theorem C41_residual_of_returned {z : X × A} {res : FV} {iters : Int}
    (h : Returns (picardSolver f tol maxIter norm z0) (z, res, iters)) : res = norm (Arr.sub (f z).1 z.1) := by
  obtain ⟨fuel, s, hs, e⟩ := returns_inv h
  simp only [Prod.mk.injEq] at e
  obtain ⟨rfl, rfl, rfl⟩ := e
  rfl

/-- **C41** (condition: at least one iteration was made) if the returned iteration count is below `max_iter`, the returned residual is a
number at most `tol` (not NaN). -/
theorem C41_converged {z : X × A} {res : FV} {iters : Int} {t : ℝ}
    (h : Returns (picardSolver f (.fin t) maxIter norm z0) (z, res, iters)) (h0 : 0 < iters) (hlt : iters < maxIter) : res.le (.fin t) := by
  obtain ⟨fuel, s, hs, e⟩ := returns_inv h
  simp only [Prod.mk.injEq] at e
  obtain ⟨rfl, rfl, rfl⟩ := e
  have hc := (whileLoop_inv (P := fun _ => True) (fun _ _ _ => trivial) trivial hs).2
  rw [if_neg (by omega)]
  unfold picardCond at hc
  push Not at hc
  have := hc hlt
  exact FV.not_gt_not_nan this.1 this.2

/-- **C41** without iterations (`iters = 0 < max_iter`) the returned point is `f(f(z_init))`, and the residual of `f(z_init)` (not of the
returned point) is at most `tol`. -/
theorem C41_no_iteration {z : X × A} {res : FV} {t : ℝ}
    (h : Returns (picardSolver f (.fin t) maxIter norm z0) (z, res, 0)) (hlt : 0 < maxIter) :
    z = f (f z0) ∧ (norm (Arr.sub (f (f z0)).1 (f z0).1)).le (.fin t) := by
  obtain ⟨fuel, s, hs, e⟩ := returns_inv h
  simp only [Prod.mk.injEq] at e
  obtain ⟨rfl, rfl, e0⟩ := e
  obtain ⟨hi, hc⟩ := whileLoop_inv (P := fun s : PicardState X A => 0 ≤ s.i ∧ (s.i = 0 → s.z = f z0)) (by
    intro s _ ⟨h1, _⟩
    simp only [picardBody]
    exact ⟨by omega, fun h => by omega⟩) ⟨le_refl _, fun _ => rfl⟩ hs
  have hz := hi.2 e0
  rw [if_pos e0, hz]
  refine ⟨rfl, ?_⟩
  unfold picardCond residual at hc
  push Not at hc
  have := hc (by omega)
  rw [hz] at this
  exact FV.not_gt_not_nan this.1 this.2

/-- **C41** for maps that do not increase the residual (in particular nonexpansive ones) convergence is reported truthfully in all
cases. -/
theorem C41_converged_nonexpansive (hf : ∀ z t, (norm (Arr.sub (f z).1 z.1)).le (.fin t) → (norm (Arr.sub (f (f z)).1 (f z).1)).le (.fin t))
    {z : X × A} {res : FV} {iters : Int} {t : ℝ}
    (h : Returns (picardSolver f (.fin t) maxIter norm z0) (z, res, iters)) (hlt : iters < maxIter) : res.le (.fin t) := by
  obtain ⟨z', res', it', h', h0, _⟩ := C40_picard_terminates f (.fin t) maxIter norm z0
  have e := Returns.unique h h'
  simp only [Prod.mk.injEq] at e
  obtain ⟨rfl, rfl, rfl⟩ := e
  by_cases hp : 0 < iters
  · exact C41_converged h hp hlt
  · have : iters = 0 := by omega
    subst this
    obtain ⟨e1, e2⟩ := C41_no_iteration h hlt
    rw [C41_residual_of_returned h, e1]
    exact hf _ _ e2

end

/-! ## One-dimensional arrays for the examples -/

/-- The array `[a]`. -/
def one1 (a : ℝ) : Fin 1 → ℝ := fun _ => a

theorem euclid_one1 (a : ℝ) : euclid (one1 a) = .fin |a| := by
  unfold euclid one1; simp [Real.sqrt_sq_eq_abs]

theorem euclid_zero {n : Nat} : euclid (0 : Fin n → ℝ) = .fin 0 := by unfold euclid; simp

theorem arr_sub {n : Nat} (a b : Fin n → ℝ) : Arr.sub a b = a - b := rfl
theorem arr_mix {n : Nat} (r : ℝ) (a b : Fin n → ℝ) : Arr.mix (.fin r) a b = r • a + (1 - r) • b := rfl

/-- When the loop does not iterate. -/
theorem picard_at_once {X A : Type} [Arr X] {f : X × A → X × A} {t : ℝ} {maxIter : Int} {norm : X → FV} {z0 : X × A}
    (h : (norm (Arr.sub (f (f z0)).1 (f z0).1)).le (.fin t)) :
    Returns (picardSolver f (.fin t) maxIter norm z0)
      (f (f z0), norm (Arr.sub (f (f (f z0))).1 (f (f z0)).1), 0) := by
  have hw : whileLoop (picardCond f (.fin t) maxIter norm) (picardBody f norm) 1 ⟨z0, f z0, 0⟩ = some ⟨z0, f z0, 0⟩ := by
    unfold whileLoop
    rw [if_neg]
    rintro ⟨_, h2⟩
    rw [FV.le_iff] at h
    rcases h2 with h2 | h2
    · exact h.1 h2
    · exact h.2 h2
  exact whileLoop_returns (fun s : PicardState X A => ((if s.i = 0 then f s.z else s.z),
    residual f norm (if s.i = 0 then f s.z else s.z), s.i)) hw

/-- **C41** negation for `iters = 0`: for `f(x) = 3x`, start 1 and tolerance 10, `picard_solver` reports 0 iterations (fewer than any
positive `max_iter`) but returns the point 9 whose residual 18 exceeds the tolerance. -/
theorem C41_false_convergence (maxIter : Int) (h : 0 < maxIter) :
    Returns (picardSolver (fun z : (Fin 1 → ℝ) × Unit => (one1 (3 * z.1 0), z.2)) (.fin 10) maxIter euclid (one1 1, ()))
      ((one1 9, ()), .fin 18, 0) ∧ ¬ (FV.fin 18).le (.fin 10) := by
  constructor
  · have := picard_at_once (f := fun z : (Fin 1 → ℝ) × Unit => (one1 (3 * z.1 0), z.2)) (t := 10) (maxIter := maxIter)
      (norm := euclid) (z0 := (one1 1, ())) (by
        have : (Arr.sub (one1 (3 * (3 * 1))) (one1 (3 * 1)) : Fin 1 → ℝ) = one1 6 := by
          funext i; simp [arr_sub, one1]; norm_num
        have e : euclid (Arr.sub (one1 (3 * (3 * 1))) (one1 (3 * 1)) : Fin 1 → ℝ) = .fin 6 := by
          rw [this, euclid_one1]; norm_num
        change (euclid (Arr.sub (one1 (3 * (3 * 1))) (one1 (3 * 1)) : Fin 1 → ℝ)).le (.fin 10)
        rw [e]
        show (6:ℝ) ≤ 10
        norm_num)
    have e2 : euclid (Arr.sub (one1 (3 * (3 * (3 * 1)))) (one1 (3 * (3 * 1))) : Fin 1 → ℝ) = .fin 18 := by
      have : (Arr.sub (one1 (3 * (3 * (3 * 1)))) (one1 (3 * (3 * 1))) : Fin 1 → ℝ) = one1 18 := by
        funext i; simp [arr_sub, one1]; norm_num
      rw [this, euclid_one1]; norm_num
    have e1 : one1 (3 * (3 * 1)) = one1 9 := by congr 1; norm_num
    change Returns _ ((one1 (3 * (3 * 1)), ()), euclid (Arr.sub (one1 (3 * (3 * (3 * 1)))) (one1 (3 * (3 * 1))) : Fin 1 → ℝ), 0) at this
    rw [e1] at this
    rw [e1] at e2
    rw [e2] at this
    exact this
  · show ¬ (18:ℝ) ≤ 10
    norm_num

/-! ## C42 -/

/-- **C42** if a convex set contains the start and `f` maps points of the set to points of the set (for all auxiliary values), then
the point returned by `picard_solver` lies in the set, for every tolerance, iteration limit and finite nonnegative norm function. -/
theorem C42_convex_invariant {n : Nat} {A : Type} (f : (Fin n → ℝ) × A → (Fin n → ℝ) × A) (tol : FV) (maxIter : Int)
    (norm : (Fin n → ℝ) → FV) (hnorm : ∀ x, ∃ r, 0 ≤ r ∧ norm x = .fin r) (C : Set (Fin n → ℝ)) (hC : Convex ℝ C)
    (hf : ∀ x a, x ∈ C → (f (x, a)).1 ∈ C) (z0 : (Fin n → ℝ) × A) (h0 : z0.1 ∈ C) {z : (Fin n → ℝ) × A} {res : FV} {iters : Int}
    (h : Returns (picardSolver f tol maxIter norm z0) (z, res, iters)) : z.1 ∈ C := by
  obtain ⟨fuel, s, hs, e⟩ := returns_inv h
  simp only [Prod.mk.injEq] at e
  obtain ⟨rfl, _, _⟩ := e
  have halpha : ∀ s, ∃ r, 0 ≤ r ∧ r ≤ 1 ∧ picardAlpha f norm s = .fin r := by
    intro s
    unfold picardAlpha
    split
    · exact ⟨1, by norm_num, le_refl _, rfl⟩
    · obtain ⟨a, ha, ea⟩ := hnorm (Arr.sub (f s.z).1 s.z.1)
      obtain ⟨b, hb, eb⟩ := hnorm (Arr.sub s.z.1 s.zPrev.1)
      rw [ea, eb]
      have : b + 1e-12 ≠ 0 := by
        have : (0:ℝ) < 1e-12 := by norm_num
        linarith
      refine ⟨min (max (a / (b + 1e-12)) 0) 1, le_min (le_max_right _ _) zero_le_one, min_le_right _ _, ?_⟩
      simp only [FV.add, FV.div, if_neg this, FV.clip01]
  have key : s.z.1 ∈ C := (whileLoop_inv (P := fun s : PicardState (Fin n → ℝ) A => s.z.1 ∈ C) (by
    intro s _ hz
    obtain ⟨r, h1, h2, e⟩ := halpha s
    change Arr.mix (picardAlpha f norm s) (f s.z).1 s.z.1 ∈ C
    rw [e, arr_mix]
    exact hC (hf _ _ hz) hz h1 (by linarith) (by ring)) (hf z0.1 z0.2 h0) hs).1
  split
  · exact hf _ _ key
  · exact key

/-- **C42** in particular linear constraints: if the start satisfies `B x = b` and `f` preserves it, so does the result. -/
theorem C42_linear_constraint {n m : Nat} {A : Type} (f : (Fin n → ℝ) × A → (Fin n → ℝ) × A) (tol : FV) (maxIter : Int)
    (B : Matrix (Fin m) (Fin n) ℝ) (b : Fin m → ℝ) (hf : ∀ x a, B *ᵥ x = b → B *ᵥ (f (x, a)).1 = b)
    (z0 : (Fin n → ℝ) × A) (h0 : B *ᵥ z0.1 = b) {z : (Fin n → ℝ) × A} {res : FV} {iters : Int}
    (h : Returns (picardSolver f tol maxIter euclid z0) (z, res, iters)) : B *ᵥ z.1 = b := by
  refine C42_convex_invariant f tol maxIter euclid (fun x => ⟨_, Real.sqrt_nonneg _, rfl⟩) {x | B *ᵥ x = b} ?_ hf z0 h0 h
  intro x hx y hy s t hs ht hst
  simp only [Set.mem_setOf_eq] at hx hy ⊢
  rw [mulVec_add, mulVec_smul, mulVec_smul, hx, hy, ← add_smul, hst, one_smul]

/-! ## C43 -/

theorem jacrev_affine {n m : Nat} (M : Matrix (Fin m) (Fin n) ℝ) (b : Fin m → ℝ) (x : Fin n → ℝ) :
    jacrev (fun y => M *ᵥ y + b) x = M := by
  ext i j
  unfold jacrev
  have h1 : HasFDerivAt (fun y => M *ᵥ y) (LinearMap.toContinuousLinearMap (Matrix.toLin' M)) x :=
    (LinearMap.toContinuousLinearMap (Matrix.toLin' M)).hasFDerivAt
  have h2 : HasFDerivAt (fun y => M *ᵥ y + b) (LinearMap.toContinuousLinearMap (Matrix.toLin' M)) x := h1.add_const b
  rw [h2.fderiv]
  simp

section
variable {n : Nat} {A : Type}

/-- **C43** for an affine map `x ↦ B x + b` (any auxiliary output) with `B - 1` invertible, `newton_solver` returns its fixed point with
residual 0 after 0 loop iterations, from every start, for every tolerance `t ≥ 0` and every `max_iter`; the auxiliary value is the one `f`
computes at that point (two updates are made: from `aux₁ = f(x, aux_init)[1]`). -/
theorem C43_newton_affine (B : Matrix (Fin n) (Fin n) ℝ) (b : Fin n → ℝ) (aux : (Fin n → ℝ) × A → A) (hB : IsUnit (B - 1).det)
    (norm : (Fin n → ℝ) → FV) (h0 : norm 0 = .fin 0) (t : ℝ) (ht : 0 ≤ t) (maxIter : Int) (z0 : (Fin n → ℝ) × A) :
    ∃ x, B *ᵥ x + b = x ∧
      Returns (newtonSolver (fun z => (B *ᵥ z.1 + b, aux z)) (.fin t) maxIter norm z0) ((x, aux (x, aux (x, z0.2))), .fin 0, 0) := by
  have hF : ∀ a, newtonF (fun z : (Fin n → ℝ) × A => (B *ᵥ z.1 + b, aux z)) a = fun x => (B - 1) *ᵥ x + b := by
    intro a; funext x; simp only [newtonF]; rw [sub_mulVec, one_mulVec]; abel
  have hg : ∀ z : (Fin n → ℝ) × A, (newtonMap (fun z => (B *ᵥ z.1 + b, aux z)) z).1 = -((B - 1)⁻¹ *ᵥ b) := by
    intro z
    simp only [newtonMap, hF, jacrev_affine]
    rw [mulVec_add, mulVec_mulVec, nonsing_inv_mul _ hB, one_mulVec]; abel
  have hfix : B *ᵥ (-((B - 1)⁻¹ *ᵥ b)) + b = -((B - 1)⁻¹ *ᵥ b) := by
    have : (B - 1) *ᵥ ((B - 1)⁻¹ *ᵥ b) = b := by rw [mulVec_mulVec, mul_nonsing_inv _ hB, one_mulVec]
    rw [sub_mulVec, one_mulVec] at this
    generalize (B - 1)⁻¹ *ᵥ b = y at this ⊢
    rw [mulVec_neg, ← this]
    abel
  have hz : ∀ z : (Fin n → ℝ) × A, norm (Arr.sub (newtonMap (fun z => (B *ᵥ z.1 + b, aux z)) (newtonMap (fun z => (B *ᵥ z.1 + b, aux z)) z)).1
      (newtonMap (fun z => (B *ᵥ z.1 + b, aux z)) z).1) = .fin 0 := by
    intro z; rw [hg, hg, arr_sub, sub_self, h0]
  have := picard_at_once (f := newtonMap (fun z : (Fin n → ℝ) × A => (B *ᵥ z.1 + b, aux z))) (t := t) (maxIter := maxIter) (norm := norm)
    (z0 := z0) (by rw [hz]; exact ht)
  rw [hz] at this
  have hga : ∀ z : (Fin n → ℝ) × A, newtonMap (fun z => (B *ᵥ z.1 + b, aux z)) z = (-((B - 1)⁻¹ *ᵥ b), aux (-((B - 1)⁻¹ *ᵥ b), z.2)) := by
    intro z
    refine Prod.ext (hg z) ?_
    have h2 : (newtonMap (fun z : (Fin n → ℝ) × A => (B *ᵥ z.1 + b, aux z)) z).2 =
        aux ((newtonMap (fun z : (Fin n → ℝ) × A => (B *ᵥ z.1 + b, aux z)) z).1, z.2) := rfl
    rw [h2, hg]
  refine ⟨-((B - 1)⁻¹ *ᵥ b), hfix, ?_⟩
  rw [hga (newtonMap (fun z : (Fin n → ℝ) × A => (B *ᵥ z.1 + b, aux z)) z0), hga z0] at this
  exact this

/-- The hypotheses of the previous theorem are met, e.g. by `x ↦ 3x + 4` with the Euclidean norm. -/
example : IsUnit ((3 : ℝ) • (1 : Matrix (Fin 2) (Fin 2) ℝ) - 1).det ∧ euclid (0 : Fin 2 → ℝ) = .fin 0 := by
  refine ⟨?_, euclid_zero⟩
  have : (3 : ℝ) • (1 : Matrix (Fin 2) (Fin 2) ℝ) - 1 = (2 : ℝ) • 1 := by
    ext i j; simp only [Matrix.sub_apply, Matrix.smul_apply, smul_eq_mul]; ring
  rw [this, det_smul]
  simp

/-- **C43** started at a point where `f` returns the same primary value (for the auxiliary values that occur), and where the Jacobian is
nonsingular, `newton_solver` returns that very point, with residual 0, after 0 loop iterations. -/
theorem C43_newton_at_root (f : (Fin n → ℝ) × A → (Fin n → ℝ) × A) (norm : (Fin n → ℝ) → FV) (h0 : norm 0 = .fin 0) (t : ℝ) (ht : 0 ≤ t)
    (maxIter : Int) (x : Fin n → ℝ) (hx : ∀ a, (f (x, a)).1 = x)
    (hJ : ∀ a, IsUnit (jacrev (newtonF f a) x).det) (a0 : A) :
    ∃ a, Returns (newtonSolver f (.fin t) maxIter norm (x, a0)) ((x, a), .fin 0, 0) := by
  have hg : ∀ a, (newtonMap f (x, a)).1 = x := by
    intro a
    simp only [newtonMap, newtonF, hx, sub_self, mulVec_zero, sub_zero]
  have e : ∀ a, newtonMap f (x, a) = (x, (newtonMap f (x, a)).2) := fun a => Prod.ext (hg a) rfl
  have hz : ∀ a, norm (Arr.sub (newtonMap f (x, a)).1 x) = .fin 0 := fun a => by rw [hg, arr_sub, sub_self, h0]
  have := picard_at_once (f := newtonMap f) (t := t) (maxIter := maxIter) (norm := norm) (z0 := (x, a0)) (by
    rw [e a0]; simp only; rw [hz]; exact ht)
  rw [e a0, e (newtonMap f (x, a0)).2] at this
  simp only [hz] at this
  exact ⟨_, this⟩

/-- **C43** the reported residual is the length of the next Newton step at the returned point (with the auxiliary value carried along), not
`‖f(z)[0] - x‖` as documented. -/
theorem C43_residual_is_newton_step (f : (Fin n → ℝ) × A → (Fin n → ℝ) × A) (tol : FV) (maxIter : Int) (z0 : (Fin n → ℝ) × A)
    {z : (Fin n → ℝ) × A} {res : FV} {iters : Int} (h : Returns (newtonSolver f tol maxIter euclid z0) (z, res, iters)) :
    res = euclid ((jacrev (newtonF f z.2) z.1)⁻¹ *ᵥ newtonF f z.2 z.1) := by
  rw [C41_residual_of_returned h, arr_sub]
  simp only [newtonMap]
  unfold euclid
  simp

/-- **C43** when the Jacobian at the returned point is nonsingular, a reported residual of exactly 0 means that the point is a root. -/
theorem C43_zero_residual_is_root (f : (Fin n → ℝ) × A → (Fin n → ℝ) × A) (tol : FV) (maxIter : Int) (z0 : (Fin n → ℝ) × A)
    {z : (Fin n → ℝ) × A} {iters : Int} (h : Returns (newtonSolver f tol maxIter euclid z0) (z, .fin 0, iters))
    (hJ : IsUnit (jacrev (newtonF f z.2) z.1).det) : (f z).1 = z.1 := by
  have e := C43_residual_is_newton_step f tol maxIter z0 h
  unfold euclid at e
  injection e with e
  have e := (Real.sqrt_eq_zero (Finset.sum_nonneg fun i _ => sq_nonneg _)).mp e.symm
  rw [Finset.sum_eq_zero_iff_of_nonneg fun i _ => sq_nonneg _] at e
  have hz : (jacrev (newtonF f z.2) z.1)⁻¹ *ᵥ newtonF f z.2 z.1 = 0 := by
    funext i; exact pow_eq_zero_iff (two_ne_zero) |>.mp (e i (Finset.mem_univ _))
  have : newtonF f z.2 z.1 = 0 := by
    rw [← one_mulVec (newtonF f z.2 z.1), ← mul_nonsing_inv _ hJ, ← mulVec_mulVec, hz, mulVec_zero]
  exact sub_eq_zero.mp this

end


theorem jacrev_one1 (g : ℝ → ℝ) (g' : ℝ) (x : Fin 1 → ℝ) (hg : HasDerivAt g g' (x 0)) : jacrev (fun y : Fin 1 → ℝ => one1 (g (y 0))) x = g' • 1 := by
  ext i j
  unfold jacrev
  have h1 : HasFDerivAt (fun y : Fin 1 → ℝ => g (y 0)) (g' • ContinuousLinearMap.proj (R := ℝ) (φ := fun _ : Fin 1 => ℝ) 0) x :=
    hg.comp_hasFDerivAt x (ContinuousLinearMap.proj (R := ℝ) (φ := fun _ : Fin 1 => ℝ) 0).hasFDerivAt
  have h2 : HasFDerivAt (fun y : Fin 1 → ℝ => one1 (g (y 0)))
      (ContinuousLinearMap.pi fun _ : Fin 1 => g' • ContinuousLinearMap.proj (R := ℝ) (φ := fun _ : Fin 1 => ℝ) 0) x :=
    hasFDerivAt_pi.mpr fun _ => h1
  rw [h2.fderiv]
  rw [Subsingleton.elim j 0, Subsingleton.elim i 0]
  simp

theorem inv_smul_one1 {c : ℝ} (hc : c ≠ 0) (a : ℝ) : (c • (1 : Matrix (Fin 1) (Fin 1) ℝ))⁻¹ *ᵥ one1 a = one1 (a / c) := by
  have : (c • (1 : Matrix (Fin 1) (Fin 1) ℝ))⁻¹ = c⁻¹ • 1 := by
    apply Matrix.inv_eq_left_inv
    rw [Matrix.smul_mul, Matrix.mul_smul, Matrix.one_mul, smul_smul, inv_mul_cancel₀ hc, one_smul]
  rw [this, smul_mulVec, one_mulVec]
  funext i
  simp [one1]; field_simp

/-- **C43** negation of the documented residual: for `f(x) = x + x²` started at 8 with tolerance 10, `newton_solver` returns the point 2 with
reported residual 1, but `‖f(2) - 2‖ = 4`. -/
theorem C43_reported_residual_differs (maxIter : Int) :
    Returns (newtonSolver (fun z : (Fin 1 → ℝ) × Unit => (one1 (z.1 0 + z.1 0 ^ 2), z.2)) (.fin 10) maxIter euclid (one1 8, ()))
      ((one1 2, ()), .fin 1, 0) ∧ euclid (one1 ((2:ℝ) + 2 ^ 2) - one1 2) = .fin 4 := by
  have hF : ∀ a, newtonF (fun z : (Fin 1 → ℝ) × Unit => (one1 (z.1 0 + z.1 0 ^ 2), z.2)) a = fun y => one1 ((fun t => t ^ 2) (y 0)) := by
    intro a; funext y i; rw [Subsingleton.elim i 0]; simp [newtonF, one1]
  have hg : ∀ c : ℝ, c ≠ 0 → newtonMap (fun z : (Fin 1 → ℝ) × Unit => (one1 (z.1 0 + z.1 0 ^ 2), z.2)) (one1 c, ()) = (one1 (c / 2), ()) := by
    intro c hc
    unfold newtonMap
    simp only [hF]
    rw [jacrev_one1 (fun t => t ^ 2) (2 * c) (one1 c) (by
      have := hasDerivAt_pow 2 c
      simp only [Nat.cast_ofNat, Nat.add_one_sub_one, pow_one] at this
      exact this), inv_smul_one1 (by simpa using hc)]
    refine Prod.ext ?_ rfl
    funext i
    simp only [one1, Pi.sub_apply]
    field_simp; ring
  constructor
  · have r : ∀ a b : ℝ, (Arr.sub (one1 a) (one1 b) : Fin 1 → ℝ) = one1 (a - b) := fun a b => rfl
    have := picard_at_once (f := newtonMap (fun z : (Fin 1 → ℝ) × Unit => (one1 (z.1 0 + z.1 0 ^ 2), z.2))) (t := 10) (maxIter := maxIter)
      (norm := euclid) (z0 := (one1 8, ())) (by
        rw [hg 8 (by norm_num), hg _ (by norm_num), r, euclid_one1]
        show |(8:ℝ) / 2 / 2 - 8 / 2| ≤ 10
        norm_num [abs_le])
    rw [hg 8 (by norm_num), hg (8/2) (by norm_num), hg (8/2/2) (by norm_num), r, euclid_one1] at this
    have e1 : (8:ℝ)/2/2 = 2 := by norm_num
    have e2 : |(2:ℝ)/2 - 2| = 1 := by norm_num
    rw [e1, e2] at this
    exact this
  · have : one1 ((2:ℝ) + 2 ^ 2) - one1 2 = one1 4 := by funext i; simp [one1]; norm_num
    rw [this, euclid_one1]; norm_num

/-! ## C44 -/

/-- **C44** for every update, residual function (NaN included), start, tolerance and limit, the loop of `invert_map` returns after at most
`max_iter` iterations. -/
theorem C44_invert_terminates {X : Type} (step : X → X) (err : X → FV) (tol : FV) (maxIter : Int) (x0 : X) :
    ∃ s, Returns (invertLoop step err tol maxIter x0) s ∧ 0 ≤ s.i ∧ s.i ≤ max maxIter 0 := by
  obtain ⟨r, hr⟩ := whileLoop_terminates (cond := fun s : InvertState X => FV.gt s.err tol ∧ s.i < maxIter)
    (body := fun s => ⟨step s.x, err s.x, s.i + 1⟩) (fun s => (maxIter - s.i).toNat) (by
      intro s hs
      have : s.i < maxIter := hs.2
      simp only
      omega) ⟨x0, .posInf, 0⟩
  have hi := (whileLoop_inv (P := fun s : InvertState X => 0 ≤ s.i ∧ s.i ≤ max maxIter 0) (by
    intro s hc ⟨h1, h2⟩
    have : s.i < maxIter := hc.2
    simp only
    omega) (by simp) hr).1
  refine ⟨r, ?_, hi⟩
  have := whileLoop_returns (fun s => s) hr
  simp only [Option.map_id'] at this
  exact this

/-- **C44** the result is `i` Newton updates of the initial guess. -/
theorem C44_invert_iterates {X : Type} (step : X → X) (err : X → FV) (tol : FV) (maxIter : Int) (x0 : X) {s : InvertState X}
    (h : Returns (invertLoop step err tol maxIter x0) s) :
    s.x = step^[s.i.toNat] x0 ∧ (0 < s.i → s.err = err (step^[s.i.toNat - 1] x0)) := by
  obtain ⟨N, h⟩ := h
  have hs := h N (le_refl _)
  have := (whileLoop_inv (P := fun s : InvertState X => 0 ≤ s.i ∧ s.x = step^[s.i.toNat] x0 ∧
    (0 < s.i → s.err = err (step^[s.i.toNat - 1] x0))) (by
      intro s _ ⟨h1, h2, h3⟩
      have e : (s.i + 1).toNat = s.i.toNat + 1 := by omega
      refine ⟨by simp only; omega, ?_, fun _ => ?_⟩
      · simp only [e, Function.iterate_succ_apply']; rw [← h2]
      · simp only [e, Nat.add_sub_cancel]; rw [← h2]) ⟨le_refl _, rfl, fun h => absurd h (lt_irrefl _)⟩ hs).1
  exact this.2

/-- **C44** if the loop stops before `max_iter` then the point one update before the returned one has a residual that is at most `tol` or
NaN. (Nothing is checked about the returned point itself.) -/
theorem C44_stop_reason {X : Type} (step : X → X) (err : X → FV) (t : ℝ) (maxIter : Int) (x0 : X) {s : InvertState X}
    (h : Returns (invertLoop step err (.fin t) maxIter x0) s) (hi : s.i < maxIter) :
    ∃ x, s.x = step x ∧ ((err x).le (.fin t) ∨ (err x).isnan) := by
  obtain ⟨N, h⟩ := h
  have hs := h N (le_refl _)
  obtain ⟨hp, hc⟩ := whileLoop_inv (P := fun s : InvertState X => FV.gt s.err (.fin t) ∧ s.i = 0 ∨ ∃ x, s.x = step x ∧ s.err = err x) (by
    intro s _ _
    exact Or.inr ⟨s.x, rfl, rfl⟩) (Or.inl ⟨by trivial, rfl⟩) hs
  have hc' : ¬ FV.gt s.err (.fin t) := fun hg => hc ⟨hg, hi⟩
  rcases hp with ⟨hg, _⟩ | ⟨x, e1, e2⟩
  · exact absurd hg hc'
  · refine ⟨x, e1, ?_⟩
    rw [← e2]
    by_cases hn : s.err.isnan
    · exact Or.inr hn
    · exact Or.inl (FV.not_gt_not_nan hc' hn)

/-- **C44** for an affine map with invertible linear part and `max_iter ≥ 1`, `invert_map` returns the exact preimage, from every initial
guess. -/
theorem C44_invert_affine {n : Nat} (M : Matrix (Fin n) (Fin n) ℝ) (b y : Fin n → ℝ) (hM : IsUnit M.det)
    (x0Fn : (Fin n → ℝ) → Fin n → ℝ) (t : ℝ) (maxIter : Int) (hm : 1 ≤ maxIter) :
    ∃ x, Returns (invertMap (fun x => M *ᵥ x + b) y x0Fn (.fin t) maxIter) x ∧ M *ᵥ x + b = y := by
  obtain ⟨s, hs, h0, h1⟩ := C44_invert_terminates (invertStep (fun x => M *ᵥ x + b) y) (fun x => euclid ((M *ᵥ x + b) - y)) (.fin t) maxIter
    (x0Fn y)
  have hstep : ∀ x, M *ᵥ invertStep (fun x => M *ᵥ x + b) y x + b = y := by
    intro x
    unfold invertStep
    rw [jacrev_affine, mulVec_add, mulVec_mulVec, mul_nonsing_inv _ hM, one_mulVec]
    beta_reduce
    abel
  refine ⟨s.x, ?_, ?_⟩
  · obtain ⟨N, h⟩ := hs
    exact ⟨N, fun fuel hf => by unfold invertMap; rw [h fuel hf]; rfl⟩
  · have hx := (C44_invert_iterates _ _ _ _ _ hs).1
    have hi : s.i ≠ 0 := by
      intro e
      obtain ⟨N, h⟩ := hs
      have hr := h (N + 1) (by omega)
      obtain ⟨hp, hc⟩ := whileLoop_inv (P := fun s : InvertState (Fin n → ℝ) => 0 ≤ s.i ∧ (s.i = 0 → s.err = .posInf)) (by
        intro s _ ⟨h1, _⟩
        exact ⟨by simp only; omega, fun h => by simp only at h; omega⟩) ⟨le_refl _, fun _ => rfl⟩ hr
      apply hc
      rw [hp.2 e, e]
      exact ⟨trivial, by omega⟩
    rw [hx, show s.i.toNat = (s.i.toNat - 1) + 1 by omega, Function.iterate_succ_apply']
    exact hstep _

/-- **C44** negation of error control: for `f(x) = x² + 1/2`, target 0, tolerance 1 and guess 1/10 the loop stops after one iteration, long
before the limit, at `-49/20`, whose residual is more than 6. -/
theorem C44_returned_point_unchecked (maxIter : Int) (hm : 1 < maxIter) :
    Returns (invertMap (fun x : Fin 1 → ℝ => one1 ((fun t => t ^ 2 + 1 / 2) (x 0))) (one1 0) (fun _ => one1 (1 / 10)) (.fin 1) maxIter)
      (one1 (-49 / 20)) ∧ ((-49 / 20 : ℝ) ^ 2 + 1 / 2 > 6) := by
  constructor
  · have e0 : (one1 ((1/10:ℝ) ^ 2 + 1 / 2) : Fin 1 → ℝ) - one1 0 = one1 (51/100) := by funext i; simp [one1]; norm_num
    have hstep : invertStep (fun x : Fin 1 → ℝ => one1 ((fun t => t ^ 2 + 1 / 2) (x 0))) (one1 0) (one1 (1/10)) = one1 (-49/20) := by
      unfold invertStep
      rw [jacrev_one1 (fun t => t ^ 2 + 1 / 2) (1 / 5) (one1 (1/10)) (by
        have := (hasDerivAt_pow 2 (1/10 : ℝ)).add_const (1/2)
        have e : (2:ℝ) * (1/10) ^ (2-1) = 1/5 := by norm_num
        norm_num at this ⊢
        exact this)]
      have : (-((fun x : Fin 1 → ℝ => one1 ((fun t : ℝ => t ^ 2 + 1 / 2) (x 0))) (one1 (1/10)) - one1 0) : Fin 1 → ℝ) = one1 (-51/100) := by
        funext i; simp [one1]; norm_num
      rw [this, inv_smul_one1 (by norm_num)]
      funext i; simp only [one1, Pi.add_apply]; norm_num
    refine ⟨2, fun fuel hf => ?_⟩
    obtain ⟨k, rfl⟩ : ∃ k, fuel = k + 2 := ⟨fuel - 2, by omega⟩
    unfold invertMap invertLoop whileLoop
    rw [if_pos ⟨trivial, by simp only; omega⟩]
    unfold whileLoop
    simp only [hstep]
    rw [if_neg]
    · rfl
    · rintro ⟨h, _⟩
      have e1 : euclid ((fun x : Fin 1 → ℝ => one1 ((fun t : ℝ => t ^ 2 + 1 / 2) (x 0))) (one1 (1/10)) - one1 0) = .fin (51/100) := by
        have : ((fun x : Fin 1 → ℝ => one1 ((fun t : ℝ => t ^ 2 + 1 / 2) (x 0))) (one1 (1/10)) - one1 0) = one1 (51/100) := e0
        rw [this, euclid_one1]; norm_num
      change FV.gt (euclid ((fun x : Fin 1 → ℝ => one1 ((fun t : ℝ => t ^ 2 + 1 / 2) (x 0))) (one1 (1/10)) - one1 0)) (.fin 1) at h
      rw [e1] at h
      change (1:ℝ) < 51/100 at h
      norm_num at h
  · norm_num

/-! ## Cases: `x ↦ x / 2 + 1` in one dimension, and an affine map in two -/

/-- `x ↦ x / 2 + 1` with a counter as auxiliary value. -/
noncomputable def caseF (z : (Fin 1 → ℝ) × Nat) : (Fin 1 → ℝ) × Nat := (one1 (z.1 0 / 2 + 1), z.2 + 1)

theorem caseF_returns : ∃ z res iters, Returns (picardSolver caseF (.fin (1 / 4)) 20 euclid (one1 0, 0)) (z, res, iters) := by
  obtain ⟨z, res, iters, h, _⟩ := C40_picard_terminates caseF (.fin (1 / 4)) 20 euclid (one1 0, 0)
  exact ⟨z, res, iters, h⟩
example : ∃ z : (Fin 1 → ℝ) × Nat, ∃ res, res = euclid ((caseF z).1 - z.1) ∧ 0 ≤ z.1 0 ∧ z.1 0 ≤ 2 := by
  obtain ⟨z, res, iters, h⟩ := caseF_returns
  have hc := C42_convex_invariant caseF _ _ euclid (fun x => ⟨_, Real.sqrt_nonneg _, rfl⟩) {x : Fin 1 → ℝ | 0 ≤ x 0 ∧ x 0 ≤ 2}
    (by
      intro x hx y hy a b ha hb hab
      simp only [Set.mem_setOf_eq, Pi.add_apply, Pi.smul_apply, smul_eq_mul] at *
      constructor <;> nlinarith)
    (by intro x a hx; simp only [Set.mem_setOf_eq, caseF, one1] at *; constructor <;> linarith [hx.1, hx.2]) (one1 0, 0)
    (by simp [one1]) h
  exact ⟨z, res, C41_residual_of_returned h, hc⟩

/-- 1 at the first call, 3 later. -/
noncomputable def caseG (z : (Fin 1 → ℝ) × Nat) : (Fin 1 → ℝ) × Nat := (one1 (if z.2 = 0 then 1 else 3), z.2 + 1)

theorem caseG_returns : Returns (picardSolver caseG (.fin 1) 20 euclid (one1 0, 0)) ((one1 3, 2), .fin 0, 1) := by
  refine ⟨2, fun n hn => ?_⟩
  obtain ⟨n, rfl⟩ : ∃ m, n = m + 2 := ⟨n - 2, by omega⟩
  have s2 : (Arr.sub (one1 3) (one1 1) : Fin 1 → ℝ) = one1 2 := by funext i; show (3 : ℝ) - 1 = 2; norm_num
  have s0 : (Arr.sub (one1 3) (one1 3) : Fin 1 → ℝ) = one1 0 := by funext i; show (3 : ℝ) - 3 = 0; norm_num
  have m1 : (Arr.mix (.fin 1) (one1 3) (one1 1) : Fin 1 → ℝ) = one1 3 := by
    funext i; show (1 : ℝ) * 3 + (1 - 1) * 1 = 3; norm_num
  have g : ∀ x : Fin 1 → ℝ, caseG (x, 1) = (one1 3, 2) ∧ caseG (x, 2) = (one1 3, 3) := fun x => by simp [caseG]
  have r1 : residual caseG euclid (one1 1, 1) = .fin 2 := by rw [residual, (g _).1, s2, euclid_one1]; norm_num
  have r2 : residual caseG euclid (one1 3, 2) = .fin 0 := by rw [residual, (g _).2, s0, euclid_one1]; norm_num
  have b1 : picardBody caseG euclid ⟨(one1 0, 0), (one1 1, 1), 0⟩ = ⟨(one1 1, 1), (one1 3, 2), 1⟩ := by
    simp only [picardBody, picardAlpha, if_true, (g _).1, m1]; rfl
  have c1 : picardCond caseG (.fin 1) 20 euclid ⟨(one1 0, 0), (one1 1, 1), 0⟩ := by
    unfold picardCond; rw [r1]; norm_num [FV.gt, FV.lt]
  have c2 : ¬ picardCond caseG (.fin 1) 20 euclid ⟨(one1 1, 1), (one1 3, 2), 1⟩ := by
    unfold picardCond; rw [r2]; norm_num [FV.gt, FV.lt, FV.isnan]
  rw [picardSolver, show caseG (one1 0, 0) = (one1 1, 1) by simp [caseG], whileLoop, if_pos c1, b1, whileLoop, if_neg c2]
  simp [r2]
example := C41_residual_of_returned caseG_returns
example := C41_converged caseG_returns (by norm_num) (by norm_num)

/-- Case of `C41_no_iteration` and `C41_converged_nonexpansive`: the constant function. -/
theorem caseC_returns : Returns (picardSolver (fun _ : (Fin 1 → ℝ) × Unit => (one1 3, ())) (.fin 1) 20 euclid (one1 0, ())) ((one1 3, ()), .fin 0, 0) := by
  refine ⟨1, fun n hn => ?_⟩
  obtain ⟨n, rfl⟩ : ∃ m, n = m + 1 := ⟨n - 1, by omega⟩
  have s0 : (Arr.sub (one1 3) (one1 3) : Fin 1 → ℝ) = one1 0 := by funext i; show (3 : ℝ) - 3 = 0; norm_num
  have r : residual (fun _ : (Fin 1 → ℝ) × Unit => (one1 3, ())) euclid (one1 3, ()) = .fin 0 := by
    rw [residual, s0, euclid_one1]; norm_num
  have c : ¬ picardCond (fun _ : (Fin 1 → ℝ) × Unit => (one1 3, ())) (.fin 1) 20 euclid ⟨(one1 0, ()), (one1 3, ()), 0⟩ := by
    unfold picardCond; rw [r]; norm_num [FV.gt, FV.lt, FV.isnan]
  rw [picardSolver, whileLoop, if_neg c]
  simp [r]
example := C41_no_iteration caseC_returns (by norm_num)
example := C41_converged_nonexpansive (fun z t h => by
    have s0 : (Arr.sub (one1 3) (one1 3) : Fin 1 → ℝ) = one1 0 := by funext i; show (3 : ℝ) - 3 = 0; norm_num
    rw [s0, euclid_one1, abs_zero]
    have h0 : ∃ r, euclid (Arr.sub (one1 3) z.1) = .fin r ∧ 0 ≤ r := ⟨_, rfl, Real.sqrt_nonneg _⟩
    obtain ⟨r, hr, hr'⟩ := h0
    rw [hr] at h
    simp only [FV.le] at h ⊢
    linarith) caseC_returns (by norm_num)

/-- Case of `C42_linear_constraint`: the constraint `x = 3`. -/
example := C42_linear_constraint (fun _ : (Fin 1 → ℝ) × Unit => (one1 3, ())) (.fin 1) 20 (1 : Matrix (Fin 1) (Fin 1) ℝ) (one1 3)
  (fun _ _ _ => by simp) (one1 3, ()) (by simp)
  (C40_picard_terminates (fun _ : (Fin 1 → ℝ) × Unit => (one1 3, ())) (.fin 1) 20 euclid (one1 3, ())).choose_spec.choose_spec.choose_spec.1

/-- Case of the Newton theorems: `f(x) = 3 x` has the root 0, and `f - id` the Jacobian 2. -/
theorem caseJ (a : Unit) (x : Fin 2 → ℝ) : IsUnit (jacrev (newtonF (fun z : (Fin 2 → ℝ) × Unit => ((3 : ℝ) • z.1, z.2)) a) x).det := by
  have e : newtonF (fun z : (Fin 2 → ℝ) × Unit => ((3 : ℝ) • z.1, z.2)) a = fun x => (2 : ℝ) • x := by
    funext x i; simp only [newtonF, Pi.sub_apply, Pi.smul_apply, smul_eq_mul]; ring
  have j : jacrev (fun x : Fin 2 → ℝ => (2 : ℝ) • x) x = (2 : ℝ) • 1 := by
    ext i j
    have : fderiv ℝ (fun x : Fin 2 → ℝ => (2 : ℝ) • x) x = (2 : ℝ) • ContinuousLinearMap.id ℝ _ :=
      ((ContinuousLinearMap.id ℝ (Fin 2 → ℝ)).hasFDerivAt.const_smul (2 : ℝ)).fderiv
    unfold jacrev
    rw [this]
    simp [Matrix.one_apply, Pi.single_apply]
  rw [e, j, det_smul]
  simp
example (t : ℝ) (ht : 0 ≤ t) := C43_newton_at_root (fun z : (Fin 2 → ℝ) × Unit => ((3 : ℝ) • z.1, z.2)) euclid euclid_zero t ht 20 0
  (fun _ => by simp) (fun a => caseJ a 0) ()
example : (3 : ℝ) • (0 : Fin 2 → ℝ) = 0 := by
  obtain ⟨a, h⟩ := C43_newton_at_root (fun z : (Fin 2 → ℝ) × Unit => ((3 : ℝ) • z.1, z.2)) euclid euclid_zero 1 (by norm_num) 20 0
    (fun _ => by simp) (fun a => caseJ a 0) ()
  exact C43_zero_residual_is_root _ _ _ _ h (caseJ a 0)
example := C43_residual_is_newton_step _ _ _ _ (C43_reported_residual_differs 20).1

/-- Cases of the `invert_map` theorems: halving until the value is below 1, from 10. -/
theorem caseI : ∃ s, Returns (invertLoop (fun x : ℝ => x / 2) (fun x => .fin x) (.fin 1) 20 10) s ∧ s.i < 20 := by
  refine ⟨⟨10 / 2 / 2 / 2 / 2 / 2, .fin (10 / 2 / 2 / 2 / 2), 5⟩, ⟨6, fun n hn => ?_⟩, by norm_num⟩
  obtain ⟨n, rfl⟩ : ∃ m, n = m + 6 := ⟨n - 6, by omega⟩
  norm_num [invertLoop, whileLoop, FV.gt, FV.lt]
example := C44_invert_iterates _ _ _ _ _ caseI.choose_spec.1
example := C44_stop_reason _ _ _ _ _ caseI.choose_spec.1 caseI.choose_spec.2
example := C44_invert_affine !![2, 1; 0, 3] ![1, 1] ![5, 7] (by simp [det_fin_two]) (fun y => y) 1e-9 20 (by norm_num)
example := C44_returned_point_unchecked 20 (by norm_num)

end Mrx.Props
