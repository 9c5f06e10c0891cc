import Verif.Props.Solvers

/-!
# C40, C41: NaN values and unusual tolerances in `picard_solver`
-/

set_option linter.unusedSectionVars false
set_option linter.unusedVariables false

namespace Mrx.Props
open Spec Matrix

section
variable {X A : Type} [Arr X] {f : X × A → X × A} {tol : FV} {maxIter : Int} {norm : X → FV} {z0 : X × A}

theorem le_of_not_gt {a t : FV} (h1 : ¬ FV.gt a t) (h2 : ¬ a.isnan) (h3 : ¬ t.isnan) : a.le t := by
  cases a <;> cases t <;> simp_all [FV.gt, FV.lt, FV.le, FV.isnan]

theorem not_le_of_gt {a t : FV} (h1 : FV.gt a t) : ¬ a.le t := by
  cases a <;> cases t <;> simp_all [FV.gt, FV.lt, FV.le]

/-- **C41** for every tolerance that is not NaN (also infinite ones): after at least one iteration and before the limit, the returned
residual is not NaN and at most the tolerance. -/
theorem C41_any_tolerance {z : X × A} {res : FV} {iters : Int} (ht : ¬ tol.isnan)
    (h : Returns (picardSolver f tol maxIter norm z0) (z, res, iters)) (h0 : 0 < iters) (hlt : iters < maxIter) :
    res.le tol ∧ ¬ res.isnan := by
  obtain ⟨fuel, s, hs, e⟩ := returns_inv h
  simp only [Prod.mk.injEq] at e
  obtain ⟨rfl, rfl, rfl⟩ := e
  have hc := (whileLoop_inv (P := fun _ => True) (fun _ _ _ => trivial) trivial hs).2
  rw [if_neg (by omega)]
  unfold picardCond at hc
  push Not at hc
  have := hc hlt
  exact ⟨le_of_not_gt this.1 this.2 ht, this.2⟩

/-- **C41** with a NaN tolerance every residual that is a number (or infinite) counts as converged: nothing is iterated unless the
residual itself is NaN. -/
theorem C41_nan_tolerance (h : ¬ (norm (Arr.sub (f (f z0)).1 (f z0).1)).isnan) :
    Returns (picardSolver f .nan maxIter norm z0) (f (f z0), norm (Arr.sub (f (f (f z0))).1 (f (f z0)).1), 0) := by
  refine ⟨1, fun fuel hf => ?_⟩
  obtain ⟨k, rfl⟩ := Nat.exists_eq_add_of_le' hf
  have hc : ¬ picardCond f .nan maxIter norm ⟨z0, f z0, 0⟩ := by
    rintro ⟨_, h1 | h1⟩
    · cases e : residual f norm (f z0) <;> simp [e, FV.gt, FV.lt] at h1
    · exact h h1
  unfold picardSolver whileLoop
  rw [if_neg hc]
  simp [residual]

/-- Arrays in which `Bad` marks those with a NaN entry: a mixture with weight NaN, or of a bad array, is bad (also `0 * NaN`), and so is
the norm of a difference with a bad array. -/
structure Poison (X : Type) [Arr X] (norm : X → FV) (Bad : X → Prop) : Prop where
  weight : ∀ a b, Bad (Arr.mix .nan a b)
  mix : ∀ α a b, Bad b → Bad (Arr.mix α a b)
  norm : ∀ a b, Bad b → (norm (Arr.sub a b)).isnan

theorem alpha_nan {s : PicardState X A} (hi : s.i ≠ 0) (h : (residual f norm s.z).isnan) : picardAlpha f norm s = .nan := by
  unfold picardAlpha
  rw [if_neg hi]
  unfold residual at h
  generalize norm (Arr.sub (f s.z).1 s.z.1) = a at h ⊢
  cases a <;> simp_all [FV.isnan, FV.div, FV.clip01]

theorem iterate_i (s : PicardState X A) (k : Nat) : ((picardBody f norm)^[k] s).i = s.i + k := by
  induction k with
  | zero => simp
  | succ k ih =>
    rw [Function.iterate_succ_apply']
    simp only [picardBody, ih]
    push_cast
    ring

/-- A run of the loop that passes the condition `k` times and then fails it. -/
theorem picard_run {k : Nat} (hj : ∀ j < k, picardCond f tol maxIter norm ((picardBody f norm)^[j] ⟨z0, f z0, 0⟩))
    (hk : ¬ picardCond f tol maxIter norm ((picardBody f norm)^[k] ⟨z0, f z0, 0⟩)) :
    ∃ fuel, whileLoop (picardCond f tol maxIter norm) (picardBody f norm) fuel ⟨z0, f z0, 0⟩ = some ((picardBody f norm)^[k] ⟨z0, f z0, 0⟩) := by
  generalize (⟨z0, f z0, 0⟩ : PicardState X A) = s at hj hk ⊢
  induction k generalizing s with
  | zero => exact ⟨1, by unfold whileLoop; rw [if_neg (show ¬ picardCond f tol maxIter norm s from hk)]; rfl⟩
  | succ k ih =>
    obtain ⟨n, hn⟩ := ih (picardBody f norm s) (fun j hj' => by rw [← Function.iterate_succ_apply]; exact hj (j + 1) (by omega)) (by
      rw [← Function.iterate_succ_apply]; exact hk)
    refine ⟨n + 1, ?_⟩
    unfold whileLoop
    rw [if_pos (show picardCond f tol maxIter norm s from hj 0 (by omega)), hn, ← Function.iterate_succ_apply]

/-- **C41** NaN is final: if the run limited to `m ≥ 1` iterations reports a NaN residual (with at least one iteration done), then the run
with any larger limit `m'` uses all its `m'` iterations and reports NaN too. -/
theorem C41_nan_is_final {Bad : X → Prop} (hp : Poison X norm Bad) {m m' : Int} (hm : m ≤ m') {z : X × A} {res : FV} {iters : Int}
    (h : Returns (picardSolver f tol m norm z0) (z, res, iters)) (h1 : 1 ≤ iters) (hres : res.isnan) :
    ∃ z' res', Returns (picardSolver f tol m' norm z0) (z', res', m') ∧ res'.isnan := by
  obtain ⟨fuel, s, hs, e⟩ := returns_inv h
  simp only [Prod.mk.injEq] at e
  obtain ⟨rfl, rfl, rfl⟩ := e
  obtain ⟨k, rfl, hc, hj⟩ := whileLoop_iterate hs
  have hi := iterate_i (f := f) (norm := norm) ⟨z0, f z0, 0⟩
  simp only [zero_add] at hi
  have hk1 : 1 ≤ k := by have := hi k; omega
  rw [if_neg (by omega)] at hres
  have hkm : (k : Int) = m := by
    by_contra hne
    refine hc ⟨?_, Or.inr hres⟩
    have := (hj (k - 1) (by omega)).1
    rw [hi] at this ⊢
    omega
  have nan : ∀ j, (residual f norm ((picardBody f norm)^[k + j] ⟨z0, f z0, 0⟩).z).isnan := by
    intro j
    induction j with
    | zero => exact hres
    | succ j ih =>
      rw [← Nat.add_assoc, Function.iterate_succ_apply']
      have ha := alpha_nan (f := f) (norm := norm) (by rw [hi]; omega) ih
      have hb : Bad (picardBody f norm ((picardBody f norm)^[k + j] ⟨z0, f z0, 0⟩)).z.1 := by
        simp only [picardBody, ha]
        exact hp.weight _ _
      exact hp.norm _ _ hb
  obtain ⟨n', hn'⟩ : ∃ n' : Nat, (n' : Int) = m' := ⟨m'.toNat, by omega⟩
  have hrun : ∀ j < n', picardCond f tol m' norm ((picardBody f norm)^[j] ⟨z0, f z0, 0⟩) := by
    intro j hjn
    refine ⟨by rw [hi]; omega, ?_⟩
    by_cases hjk : j < k
    · exact (hj j hjk).2
    · refine Or.inr ?_
      have := nan (j - k)
      rwa [show k + (j - k) = j by omega] at this
  have hstop : ¬ picardCond f tol m' norm ((picardBody f norm)^[n'] ⟨z0, f z0, 0⟩) := by
    rintro ⟨h, _⟩
    rw [hi] at h
    omega
  obtain ⟨fuel', hf'⟩ := picard_run hrun hstop
  have hr := whileLoop_returns (fun s : PicardState X A =>
    let z := if s.i = 0 then f s.z else s.z
    (z, residual f norm z, s.i)) hf'
  simp only [hi] at hr
  rw [hn', if_neg (by omega)] at hr
  refine ⟨_, _, hr, ?_⟩
  have := nan (n' - k)
  rwa [show k + (n' - k) = n' by omega] at this

/-- **C40** a NaN in `f(z_init)` is not repaired: every limit `max_iter ≥ 1` is used up and NaN is reported, whatever `f` does later. -/
theorem C40_nan_start {Bad : X → Prop} (hp : Poison X norm Bad) (h : Bad (f z0).1) (hm : 1 ≤ maxIter) :
    ∃ z res, Returns (picardSolver f tol maxIter norm z0) (z, res, maxIter) ∧ res.isnan := by
  have hi := iterate_i (f := f) (norm := norm) ⟨z0, f z0, 0⟩
  simp only [zero_add] at hi
  have bad : ∀ j, Bad ((picardBody f norm)^[j] ⟨z0, f z0, 0⟩).z.1 := by
    intro j
    induction j with
    | zero => exact h
    | succ j ih =>
      rw [Function.iterate_succ_apply']
      exact hp.mix _ _ _ ih
  obtain ⟨n', hn'⟩ : ∃ n' : Nat, (n' : Int) = maxIter := ⟨maxIter.toNat, by omega⟩
  have hrun : ∀ j < n', picardCond f tol maxIter norm ((picardBody f norm)^[j] ⟨z0, f z0, 0⟩) := fun j hjn =>
    ⟨by rw [hi]; omega, Or.inr (hp.norm _ _ (bad j))⟩
  have hstop : ¬ picardCond f tol maxIter norm ((picardBody f norm)^[n'] ⟨z0, f z0, 0⟩) := by
    rintro ⟨h, _⟩
    rw [hi] at h
    omega
  obtain ⟨fuel', hf'⟩ := picard_run hrun hstop
  have hr := whileLoop_returns (fun s : PicardState X A =>
    let z := if s.i = 0 then f s.z else s.z
    (z, residual f norm z, s.i)) hf'
  simp only [hi] at hr
  rw [hn', if_neg (by omega)] at hr
  exact ⟨_, _, hr, hp.norm _ _ (bad n')⟩

end

/-! ## Vectors with NaN -/

/-- Real vectors or an array with a NaN in it. -/
abbrev NVec (n : Nat) := Option (Fin n → ℝ)

noncomputable instance (n : Nat) : Arr (NVec n) where
  sub a b := a.bind fun a => b.map fun b => a - b
  mix α a b := match α with
    | .fin r => a.bind fun a => b.map fun b => r • a + (1 - r) • b
    | _ => none

/-- `jnp.linalg.norm`. -/
noncomputable def nnorm {n : Nat} : NVec n → FV
  | none => .nan
  | some r => euclid r

/-- The hypotheses on NaN are met. -/
theorem nvec_poison (n : Nat) : Poison (NVec n) nnorm (fun a => a = none) where
  weight _ _ := rfl
  mix α a b h := by
    subst h
    cases α <;> cases a <;> rfl
  norm a b h := by
    subst h
    cases a <;> trivial

/-- Example: a map that gives NaN at the start never recovers, although it is constant elsewhere. -/
example : ∃ z res, Returns (picardSolver (fun z : NVec 1 × Unit => (if z.1 = some 0 then none else some 1, ())) (.fin 1e-9) 20 nnorm (some 0, ())) (z, res, 20)
    ∧ res.isnan :=
  C40_nan_start (nvec_poison 1) (by simp) (by norm_num)

/-- Case of `C41_any_tolerance`: the run `caseG_returns` stops after one iteration at a finite tolerance. -/
example := C41_any_tolerance (by simp [FV.isnan]) caseG_returns (by norm_num) (by norm_num)

/-- Case of `C41_nan_tolerance`: a map whose residuals are never NaN. -/
example := C41_nan_tolerance (f := caseF) (maxIter := 20) (norm := euclid) (z0 := (one1 0, 0)) (by simp [euclid, FV.isnan])

/-- Case of `C41_nan_is_final`: the map that fails at its first input, with 20 and with 30 iterations. -/
example : ∃ z res, Returns (picardSolver (fun z : NVec 1 × Unit => (if z.1 = some 0 then none else some 1, ())) (.fin 1e-9) 30 nnorm (some 0, ())) (z, res, 30)
    ∧ res.isnan := by
  obtain ⟨z, res, h, hn⟩ := C40_nan_start (f := fun z : NVec 1 × Unit => (if z.1 = some 0 then none else some 1, ())) (tol := .fin 1e-9) (maxIter := 20)
    (z0 := (some 0, ())) (nvec_poison 1) (by simp) (by norm_num)
  exact C41_nan_is_final (nvec_poison 1) (by norm_num) h (by norm_num) hn

end Mrx.Props
