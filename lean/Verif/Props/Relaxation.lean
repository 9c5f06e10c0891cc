import Verif.Model.Relaxation
import Verif.Proofs.Loop
import Mathlib.Tactic.Positivity
import Mathlib.Data.List.Range

/-!
# C48-C51: control flow of `TimeStepper.picard_solver` and `run_relaxation_loop`

The results of the numerical computations are arbitrary, NaN and infinities included.
-/

set_option linter.unusedSectionVars false
set_option linter.unusedVariables false

namespace Mrx.Props
open Spec

/-! ## C48 -/

section
variable {V H : Type} (upd : State V H → Update V) (tol : ℝ) (maxit : Int) (s : State V H)

theorem stepper_some : ∃ r, stepperSolve upd tol maxit s (maxit.toNat + 1) = some r := by
  have := whileLoop_terminates (cond := stepperCond (V := V) (H := H) tol maxit) (body := midpointResiduum upd)
    (fun s => (maxit - s.picardIterations).toNat) (by
      intro s hs
      have : s.picardIterations < maxit := hs.1
      simp only [midpointResiduum]
      omega) { s with picardResiduum := .fin 1, picardIterations := 0 }
  simpa [stepperSolve] using this

/-- **C48** `TimeStepper.picard_solver` returns for every state and every behaviour of the numerical computations; the result is `step`. -/
theorem C48_picard_terminates : Returns (stepperSolve upd tol maxit s) (step upd tol maxit s) := by
  obtain ⟨r, hr⟩ := stepper_some upd tol maxit s
  refine ⟨maxit.toNat + 1, fun n hn => ?_⟩
  have := whileLoop_mono (k := n - (maxit.toNat + 1)) hr
  rw [show maxit.toNat + 1 + (n - (maxit.toNat + 1)) = n by omega] at this
  simp only [step, hr, Option.getD_some]
  exact this

theorem step_iterate : ∃ k : Nat,
    step upd tol maxit s = (midpointResiduum upd)^[k] { s with picardResiduum := .fin 1, picardIterations := 0 } ∧
    ¬ stepperCond tol maxit (step upd tol maxit s) ∧
    (∀ j < k, stepperCond tol maxit ((midpointResiduum upd)^[j] { s with picardResiduum := .fin 1, picardIterations := 0 })) := by
  obtain ⟨r, hr⟩ := stepper_some upd tol maxit s
  have : step upd tol maxit s = r := by simp [step, hr]
  rw [this]
  exact whileLoop_iterate hr

theorem iterate_frame (k : Nat) (s : State V H) : ((midpointResiduum upd)^[k] s).Bn = s.Bn ∧ ((midpointResiduum upd)^[k] s).dt = s.dt ∧
    ((midpointResiduum upd)^[k] s).eta = s.eta ∧ ((midpointResiduum upd)^[k] s).hessian = s.hessian ∧
    ((midpointResiduum upd)^[k] s).picardIterations = s.picardIterations + k := by
  induction k with
  | zero => simp
  | succ k ih =>
    rw [Function.iterate_succ_apply']
    obtain ⟨h1, h2, h3, h4, h5⟩ := ih
    simp only [midpointResiduum, h1, h2, h3, h4, h5, Nat.cast_add, Nat.cast_one]
    exact ⟨trivial, trivial, trivial, trivial, by omega⟩

variable {upd tol maxit s}

/-- **C48** on return, either the iteration limit was reached or the residual is a number at most the tolerance (never NaN or `+∞`). -/
theorem C48_result {r : State V H} (h : Returns (stepperSolve upd tol maxit s) r) :
    (maxit ≤ r.picardIterations ∨ r.picardResiduum.le (.fin tol)) ∧ 0 ≤ r.picardIterations ∧ r.picardIterations ≤ max maxit 0 := by
  have e := Returns.unique h (C48_picard_terminates upd tol maxit s)
  obtain ⟨k, hk, hc, hj⟩ := step_iterate upd tol maxit s
  rw [← e] at hk hc
  have hi : r.picardIterations = k := by
    rw [hk, (iterate_frame upd k _).2.2.2.2]; simp
  refine ⟨?_, by omega, ?_⟩
  · by_cases hm : r.picardIterations < maxit
    · right
      unfold stepperCond at hc
      push Not at hc
      exact FV.not_gt_not_nan (hc hm).1 (hc hm).2
    · left; omega
  · rcases Nat.eq_zero_or_pos k with h0 | h0
    · omega
    · have := (hj (k - 1) (by omega)).1
      rw [(iterate_frame upd (k - 1) _).2.2.2.2] at this
      simp only at this
      omega

/-- **C48** the solver stops at the *first* iterate that passes: every earlier iterate had a residual that is NaN or above the tolerance
(`1.0` is used as the residual of the initial guess), and the returned guess, residual and norms are those of the last evaluation. -/
theorem C48_first {r : State V H} (h : Returns (stepperSolve upd tol maxit s) r) :
    ∃ k : Nat, r.picardIterations = k ∧ r = (midpointResiduum upd)^[k] { s with picardResiduum := .fin 1, picardIterations := 0 } ∧
      ∀ j < k, ¬ ((midpointResiduum upd)^[j] { s with picardResiduum := .fin 1, picardIterations := 0 }).picardResiduum.le (.fin tol) := by
  have e := Returns.unique h (C48_picard_terminates upd tol maxit s)
  obtain ⟨k, hk, hc, hj⟩ := step_iterate upd tol maxit s
  rw [← e] at hk hc
  refine ⟨k, by rw [hk, (iterate_frame upd k _).2.2.2.2]; simp, hk, fun j hjk => ?_⟩
  have := (hj j hjk).2
  rw [FV.le_iff]
  tauto

/-- **C48** the solver changes neither the field of the last step, nor the time step, the resistivity or the Hessian. -/
theorem C48_frame {r : State V H} (h : Returns (stepperSolve upd tol maxit s) r) :
    r.Bn = s.Bn ∧ r.dt = s.dt ∧ r.eta = s.eta ∧ r.hessian = s.hessian := by
  obtain ⟨k, _, rfl, _⟩ := C48_first h
  have := iterate_frame upd k { s with picardResiduum := .fin 1, picardIterations := 0 }
  exact ⟨this.1, this.2.1, this.2.2.1, this.2.2.2.1⟩

/-- **C48** if the tolerance is below 1 and the limit positive, the solver evaluates the equations at least once, and the returned residual,
guess and norms come from one evaluation at some guess `p` with the same `B_n`, `dt`, `eta`, `Hessian`. -/
theorem C48_last {r : State V H} (h : Returns (stepperSolve upd tol maxit s) r) (ht : tol < 1) (hm : 0 < maxit) :
    ∃ p : State V H, p.Bn = s.Bn ∧ p.dt = s.dt ∧ p.eta = s.eta ∧ p.hessian = s.hessian ∧ r.Bguess = (upd p).B ∧
      r.picardResiduum = (upd p).residuum ∧ r.forceNorm = (upd p).force ∧ r.velocityNorm = (upd p).velocity := by
  have e := Returns.unique h (C48_picard_terminates upd tol maxit s)
  obtain ⟨k, hk, hc, hj⟩ := step_iterate upd tol maxit s
  rw [← e] at hk hc
  cases k with
  | zero =>
    exfalso
    apply hc
    rw [hk]
    exact ⟨hm, Or.inl (by simpa [FV.gt, FV.lt] using ht)⟩
  | succ k =>
    rw [Function.iterate_succ_apply'] at hk
    have := iterate_frame upd k { s with picardResiduum := .fin 1, picardIterations := 0 }
    refine ⟨(midpointResiduum upd)^[k] { s with picardResiduum := .fin 1, picardIterations := 0 }, this.1, this.2.1, this.2.2.1,
      this.2.2.2.1, ?_⟩
    rw [hk]
    exact ⟨rfl, rfl, rfl, rfl⟩

/-- **C48** with a tolerance of 1 or more the solver does nothing at all and reports the residual 1, which counts as converged. -/
theorem C48_tol_ge_one (ht : 1 ≤ tol) :
    Returns (stepperSolve upd tol maxit s) { s with picardResiduum := .fin 1, picardIterations := 0 } := by
  refine ⟨1, fun n hn => ?_⟩
  obtain ⟨n, rfl⟩ : ∃ m, n = m + 1 := ⟨n - 1, by omega⟩
  unfold stepperSolve whileLoop
  rw [if_neg]
  simp only [stepperCond, FV.gt, FV.lt, FV.isnan]
  rintro ⟨_, h | h⟩
  · linarith
  · exact h

end

/-- A concrete case: an evaluation that gives NaN first and then converges; the solver returns after the second evaluation. -/
example : Returns (stepperSolve (V := Nat) (H := Unit)
    (fun s => ⟨s.Bguess + 1, if s.Bguess = 0 then .nan else .fin 0, .fin 0, .fin 0⟩) (1 / 2) 20
    ⟨0, 0, 1, 0, (), 0, .nan, .nan, .nan⟩) ⟨0, 2, 1, 0, (), 2, .fin 0, .fin 0, .fin 0⟩ := by
  refine ⟨3, fun n hn => ?_⟩
  obtain ⟨n, rfl⟩ : ∃ m, n = m + 3 := ⟨n - 3, by omega⟩
  norm_num [stepperSolve, whileLoop, stepperCond, midpointResiduum, FV.gt, FV.lt, FV.isnan]

/-! ## C49 -/

section
variable {V H : Type} (cfg : RelaxConfig) (env : RelaxEnv V H) (start : ℝ)

theorem step_frame (s : State V H) : (env.step cfg s).Bn = s.Bn ∧ (env.step cfg s).dt = s.dt ∧ (env.step cfg s).eta = s.eta ∧
    (env.step cfg s).hessian = s.hessian := C48_frame (C48_picard_terminates env.upd cfg.solverTol cfg.solverMaxit s)

/-- **C49** a step counts as accepted exactly when its residual is a finite number at most the tolerance. -/
theorem C49_accepted_iff (s : State V H) : ¬ rejected cfg s ↔ ∃ x, s.picardResiduum = .fin x ∧ x ≤ cfg.solverTol := by
  unfold rejected
  cases h : s.picardResiduum <;> simp [FV.gt, FV.lt, FV.isfinite]

/-- **C49** a rejected step leaves field, resistivity, Hessian and trace unchanged, resets the guess to the field and halves `dt`. -/
theorem C49_rejected_step (i : Nat) (l : LoopState V H) (hl : l.stopped = false) (hr : rejected cfg (env.step cfg l.state)) :
    let l' := relaxIteration cfg env start i l
    l'.state.Bn = l.state.Bn ∧ l'.state.Bguess = l.state.Bn ∧ l'.state.dt = l.state.dt / 2 ∧ l'.state.eta = l.state.eta ∧
      l'.state.hessian = l.state.hessian ∧ l'.trace = l.trace ∧ l'.stopped = false := by
  obtain ⟨h1, h2, h3, h4⟩ := step_frame cfg env l.state
  simp only [relaxIteration, hl, Bool.false_eq_true, if_false, if_pos hr, rejectState, State.updateDt, State.updateBguess, h1, h2, h3, h4,
    and_self]

/-- **C49** the iteration count, residual and norms found in the state after an iteration are those of the step just attempted, whether it
was accepted or rejected: in particular a rejected step can be recognised in the state, its residual being not finite or above the tolerance. -/
theorem C49_reported_step (i : Nat) (l : LoopState V H) (hl : l.stopped = false) :
    let l' := relaxIteration cfg env start i l
    let s := env.step cfg l.state
    l'.state.picardIterations = s.picardIterations ∧ l'.state.picardResiduum = s.picardResiduum ∧ l'.state.forceNorm = s.forceNorm ∧
      l'.state.velocityNorm = s.velocityNorm ∧ (rejected cfg l'.state ↔ rejected cfg s) := by
  by_cases hr : rejected cfg (env.step cfg l.state)
  · simp only [relaxIteration, hl, Bool.false_eq_true, if_false, if_pos hr, rejectState, State.updateDt, State.updateBguess]
    simp [rejected]
  · simp only [relaxIteration, hl, Bool.false_eq_true, if_false, if_neg hr, acceptState, State.updateDt, State.updateBn,
      State.updateHessian]
    split_ifs <;> simp [rejected]

/-- **C49** the preconditioner: an accepted iteration whose number is a multiple of `precond_compute_every` replaces the Hessian by that of the new
field (perturbation included) if the preconditioner is switched on; any other accepted iteration keeps it. -/
theorem C49_hessian (i : Nat) (l : LoopState V H) (hl : l.stopped = false) (hr : ¬ rejected cfg (env.step cfg l.state)) :
    let l' := relaxIteration cfg env start i l
    (cfg.precond = true → cfg.precondEvery ∣ i → l'.state.hessian = env.hessian l'.state.Bn) ∧
      (¬ (cfg.precond = true ∧ cfg.precondEvery ∣ i) → l'.state.hessian = l.state.hessian) := by
  obtain ⟨h1, h2, h3, h4⟩ := step_frame cfg env l.state
  simp only [relaxIteration, hl, Bool.false_eq_true, if_false, if_neg hr, acceptState, State.updateDt, State.updateBn, State.updateHessian,
    Nat.dvd_iff_mod_eq_zero]
  constructor
  · intro a b
    simp only [a, b, and_self, if_true]
  · intro a
    simp only [a, if_false]
    split_ifs <;> simp [h1, h2, h3, h4]

/-- **C49** halving strictly decreases a positive `dt` and keeps it positive. -/
theorem C49_dt_decreases (i : Nat) (l : LoopState V H) (hl : l.stopped = false) (hr : rejected cfg (env.step cfg l.state))
    (hdt : 0 < l.state.dt) : 0 < (relaxIteration cfg env start i l).state.dt ∧
      (relaxIteration cfg env start i l).state.dt < l.state.dt := by
  rw [(C49_rejected_step cfg env start i l hl hr).2.2.1]
  constructor <;> linarith

/-- **C49** an accepted step (no perturbation at this iteration) makes the converged guess the new field; the resistivity is unchanged and
`dt` is multiplied by `dt_factor` or divided by its square, depending on the number of Picard iterations. -/
theorem C49_accepted_step (i : Nat) (l : LoopState V H) (hl : l.stopped = false) (hr : ¬ rejected cfg (env.step cfg l.state))
    (hp : ¬ ((i : Int) = cfg.applyPertAfter ∧ 0 < cfg.pertStrength)) :
    let l' := relaxIteration cfg env start i l
    l'.state.Bn = (env.step cfg l.state).Bguess ∧ l'.state.Bguess = (env.step cfg l.state).Bguess ∧ l'.state.eta = l.state.eta ∧
      l'.state.dt = if (env.step cfg l.state).picardIterations < cfg.solverCritit then l.state.dt * cfg.dtFactor
        else l.state.dt / cfg.dtFactor ^ 2 := by
  obtain ⟨h1, h2, h3, h4⟩ := step_frame cfg env l.state
  simp only [relaxIteration, hl, Bool.false_eq_true, if_false, if_neg hr, acceptState, State.updateDt, State.updateBn, State.updateHessian,
    gt_iff_lt, if_neg hp]
  split_ifs <;> simp [h2, h3]

/-- **C49** `dt` stays positive and the resistivity constant forever, for every history of accepted and rejected steps. -/
theorem C49_dt_positive (s : State V H) (t : Trace V) (hdt : 0 < s.dt) (hf : 0 < cfg.dtFactor) (k : Nat) :
    0 < (relaxAfter cfg env start s t k).state.dt ∧ (relaxAfter cfg env start s t k).state.eta = s.eta := by
  induction k with
  | zero => exact ⟨hdt, rfl⟩
  | succ k ih =>
    generalize hl : relaxAfter cfg env start s t k = l at ih
    obtain ⟨h1, h2, h3, h4⟩ := step_frame cfg env l.state
    simp only [relaxAfter, hl, relaxIteration]
    split_ifs with hs hr
    · exact ih
    · refine ⟨?_, ?_⟩
      · simp only [rejectState, State.updateDt, State.updateBguess, h2]; linarith [ih.1]
      · simp only [rejectState, State.updateDt, State.updateBguess, h3]; exact ih.2
    · have hpos : 0 < (env.step cfg l.state).dt := by rw [h2]; exact ih.1
      have he : (env.step cfg l.state).eta = s.eta := by rw [h3]; exact ih.2
      simp only [acceptState, State.updateDt, State.updateBn, State.updateHessian]
      refine ⟨?_, ?_⟩
      · split_ifs <;> simp <;> positivity
      · split_ifs <;> simp [he]

/-- **C49** `dt` after `k` iterations is `dt_0` times `dt_factor^a / dt_factor^(2 b) / 2^c`, with at most `k` changes in total. -/
theorem C49_dt_formula (s : State V H) (t : Trace V) (k : Nat) : ∃ a b c : Nat, a + b + c ≤ k ∧
    (relaxAfter cfg env start s t k).state.dt = s.dt * cfg.dtFactor ^ a / (cfg.dtFactor ^ 2) ^ b / 2 ^ c := by
  induction k with
  | zero => exact ⟨0, 0, 0, by simp, by simp [relaxAfter, relaxInit]⟩
  | succ k ih =>
    obtain ⟨a, b, c, habc, e⟩ := ih
    generalize hl : relaxAfter cfg env start s t k = l at e
    obtain ⟨h1, h2, h3, h4⟩ := step_frame cfg env l.state
    simp only [relaxAfter, hl, relaxIteration]
    split_ifs with hs hr
    · exact ⟨a, b, c, by omega, e⟩
    · refine ⟨a, b, c + 1, by omega, ?_⟩
      simp only [rejectState, State.updateDt, State.updateBguess, h2, e]
      rw [pow_succ (2 : ℝ)]; ring
    · have hd : (acceptState cfg env (k + 1) (env.step cfg l.state)).dt = l.state.dt * cfg.dtFactor ∨
          (acceptState cfg env (k + 1) (env.step cfg l.state)).dt = l.state.dt / cfg.dtFactor ^ 2 := by
        simp only [acceptState, State.updateDt, State.updateBn, State.updateHessian]
        split_ifs <;> simp [h2]
      rcases hd with hd | hd
      · refine ⟨a + 1, b, c, by omega, ?_⟩
        simp only [hd, e, pow_succ]; ring
      · refine ⟨a, b + 1, c, by omega, ?_⟩
        simp only [hd, e]
        rw [pow_succ (cfg.dtFactor ^ 2)]
        rw [div_right_comm, div_div _ ((cfg.dtFactor ^ 2) ^ b)]

/-- **C49** as long as every step is rejected, the field, resistivity, Hessian and trace never change and `dt` is `dt_0 / 2^k`. -/
theorem C49_all_rejected (s : State V H) (t : Trace V) (k : Nat)
    (hr : ∀ j < k, rejected cfg (env.step cfg (relaxAfter cfg env start s t j).state)) :
    (relaxAfter cfg env start s t k).state.Bn = s.Bn ∧ (relaxAfter cfg env start s t k).state.dt = s.dt / 2 ^ k ∧
    (relaxAfter cfg env start s t k).state.eta = s.eta ∧ (relaxAfter cfg env start s t k).state.hessian = s.hessian ∧
    (relaxAfter cfg env start s t k).trace = (relaxInit cfg env start s t).trace ∧ (relaxAfter cfg env start s t k).stopped = false := by
  induction k with
  | zero => simp [relaxAfter, relaxInit]
  | succ k ih =>
    obtain ⟨h1, h2, h3, h4, h5, h6⟩ := ih (fun j hj => hr j (by omega))
    obtain ⟨e1, e2, e3, e4, e5, e6, e7⟩ := C49_rejected_step cfg env start (k + 1) _ h6 (hr k (by omega))
    rw [relaxAfter]
    refine ⟨e1.trans h1, ?_, e4.trans h3, e5.trans h4, e6.trans h5, e7⟩
    rw [e3, h2, pow_succ]; ring

/-- **C49** after a break nothing changes any more. -/
theorem C49_stopped (s : State V H) (t : Trace V) (k n : Nat) (h : (relaxAfter cfg env start s t k).stopped = true) :
    relaxAfter cfg env start s t (k + n) = relaxAfter cfg env start s t k := by
  induction n with
  | zero => rfl
  | succ n ih =>
    rw [← Nat.add_assoc, relaxAfter, ih, relaxIteration, if_pos h]

/-! ## C50 -/

/-- Iteration `i >= 1` is executed (no break before) and its step is accepted. -/
def Accepted (s : State V H) (t : Trace V) (i : Nat) : Prop :=
  (relaxAfter cfg env start s t (i - 1)).stopped = false ∧
    ∃ x, (env.step cfg (relaxAfter cfg env start s t (i - 1)).state).picardResiduum = .fin x ∧ x ≤ cfg.solverTol

open Classical in
/-- The iterations among `1..k` that are due to be saved and whose step was accepted. -/
noncomputable def savedIterations (s : State V H) (t : Trace V) (k : Nat) : List Nat :=
  (List.range' 1 k).filter fun i => (i % cfg.saveEvery = 0 ∨ i = cfg.maxit) ∧ Accepted cfg env start s t i

open Classical in
/-- **C50** the complete contents of the trace after `k` iterations: what was there before, the entry for iteration 0 (norms of a trial
step from the initial state), and one entry for each accepted iteration that is due, in order, holding the values of the state after that
iteration. -/
theorem C50_trace (s : State V H) (t : Trace V) (k : Nat) :
    let L := savedIterations cfg env start s t k
    let st := fun i => (relaxAfter cfg env start s t i).state
    let tr := (relaxAfter cfg env start s t k).trace
    tr.iterations = t.iterations ++ 0 :: L ∧
    tr.force = t.force ++ (env.step cfg s).forceNorm :: L.map (fun i => (st i).forceNorm) ∧
    tr.velocity = t.velocity ++ (env.step cfg s).velocityNorm :: L.map (fun i => (st i).velocityNorm) ∧
    tr.energy = t.energy ++ env.energy s.Bn :: L.map (fun i => env.energy (st i).Bn) ∧
    tr.helicity = t.helicity ++ env.helicity s.Bn :: L.map (fun i => env.helicity (st i).Bn) ∧
    tr.divergence = t.divergence ++ env.divergence s.Bn :: L.map (fun i => env.divergence (st i).Bn) ∧
    tr.picardIterations = t.picardIterations ++ 0 :: L.map (fun i => (st i).picardIterations) ∧
    tr.picardErrors = t.picardErrors ++ .fin 0 :: L.map (fun i => (st i).picardResiduum) ∧
    tr.timesteps = t.timesteps ++ s.dt :: L.map (fun i => (st i).dt) ∧
    tr.wallTime = t.wallTime ++ (env.clock 0 - start) :: L.map (fun i => env.clock i - start) ∧
    tr.Bfields = if cfg.saveB then t.Bfields ++ s.Bn :: L.map (fun i => (st i).Bn) else t.Bfields := by
  induction k with
  | zero =>
    simp only [savedIterations, List.range'_zero, List.filter_nil, relaxAfter, relaxInit, Trace.append, List.map_nil,
      (step_frame cfg env s).2.1, true_and]
    cases cfg.saveB <;> simp
  | succ k ih =>
    have hL : savedIterations cfg env start s t (k + 1) = savedIterations cfg env start s t k ++
        if ((k + 1) % cfg.saveEvery = 0 ∨ k + 1 = cfg.maxit) ∧ Accepted cfg env start s t (k + 1) then [k + 1] else [] := by
      simp only [savedIterations, List.range'_1_concat, List.filter_append, List.append_cancel_left_eq]
      rw [show 1 + k = k + 1 by omega]
      simp only [List.filter_cons, List.filter_nil, decide_eq_true_eq]
    have hlast : relaxAfter cfg env start s t (k + 1) = relaxIteration cfg env start (k + 1) (relaxAfter cfg env start s t k) := rfl
    have hA : Accepted cfg env start s t (k + 1) ↔ (relaxAfter cfg env start s t k).stopped = false ∧
        ¬ rejected cfg (env.step cfg (relaxAfter cfg env start s t k).state) := by
      rw [C49_accepted_iff]; rfl
    generalize hl : relaxAfter cfg env start s t k = l at ih hlast hA
    intro L st tr
    have hst : st (k + 1) = (relaxAfter cfg env start s t (k + 1)).state := rfl
    have htr : tr = (relaxAfter cfg env start s t (k + 1)).trace := rfl
    by_cases hc : ((k + 1) % cfg.saveEvery = 0 ∨ k + 1 = cfg.maxit) ∧ Accepted cfg env start s t (k + 1)
    · have hLL : L = savedIterations cfg env start s t k ++ [k + 1] := by
        simp only [L, hL, if_pos hc]
      obtain ⟨hs, hr⟩ := hA.mp hc.2
      have e : relaxAfter cfg env start s t (k + 1) = ⟨acceptState cfg env (k + 1) (env.step cfg l.state),
          record cfg env start (k + 1) (acceptState cfg env (k + 1) (env.step cfg l.state)) l.trace,
          decide (FV.lt ((record cfg env start (k + 1) (acceptState cfg env (k + 1) (env.step cfg l.state)) l.trace).force.getLastD .nan)
            (.fin cfg.forceTol))⟩ := by
        rw [hlast, relaxIteration, if_neg (by simp [hs])]
        simp only [if_neg hr]
      rw [e] at hst htr
      simp only at hst htr
      rw [record, if_pos hc.1, ← hst] at htr
      obtain ⟨i1, i2, i3, i4, i5, i6, i7, i8, i9, i10, i11⟩ := ih
      rw [htr, hLL]
      simp only [Trace.append, List.map_append, List.map_cons, List.map_nil, i1, i2, i3, i4, i5, i6, i7, i8, i9, i10, i11,
        List.append_assoc, List.cons_append, true_and]
      refine ⟨rfl, rfl, rfl, rfl, rfl, rfl, rfl, rfl, ?_⟩
      cases cfg.saveB <;> simp [st]
    · have hLL : L = savedIterations cfg env start s t k := by
        simp only [L, hL, if_neg hc, List.append_nil]
      have e : tr = l.trace := by
        rw [htr, hlast]
        simp only [relaxIteration]
        split_ifs with hs hr
        · rfl
        · rfl
        · simp only
          rw [record, if_neg]
          intro h
          exact hc ⟨h, hA.mpr ⟨by simpa using hs, hr⟩⟩
      rw [e, hLL]
      exact ih

/-- **C50** all lists of the trace have the same length after any run that started with lists of equal length (the list of fields
too, if fields are saved). -/
theorem C50_aligned (s : State V H) (t : Trace V) (n k : Nat) (h1 : t.iterations.length = n) (h2 : t.force.length = n)
    (h3 : t.energy.length = n) (h4 : t.helicity.length = n) (h5 : t.divergence.length = n) (h6 : t.velocity.length = n)
    (h7 : t.picardIterations.length = n) (h8 : t.picardErrors.length = n) (h9 : t.timesteps.length = n) (h10 : t.wallTime.length = n)
    (h11 : t.Bfields.length = n) :
    let tr := (relaxAfter cfg env start s t k).trace
    let m := tr.iterations.length
    tr.force.length = m ∧ tr.energy.length = m ∧ tr.helicity.length = m ∧ tr.divergence.length = m ∧ tr.velocity.length = m ∧
    tr.picardIterations.length = m ∧ tr.picardErrors.length = m ∧ tr.timesteps.length = m ∧ tr.wallTime.length = m ∧
    (cfg.saveB = true → tr.Bfields.length = m) := by
  obtain ⟨i1, i2, i3, i4, i5, i6, i7, i8, i9, i10, i11⟩ := C50_trace cfg env start s t k
  simp only [i1, i2, i3, i4, i5, i6, i7, i8, i9, i10, i11, List.length_append, List.length_cons, List.length_map, h1, h2, h3, h4, h5, h6,
    h7, h8, h9, h10, true_and]
  intro hB
  simp [hB, h11]

/-- **C50** the recorded iteration numbers are strictly increasing, start with 0, and each later one is a multiple of `save_every` or the
last iteration, with an accepted step. -/
theorem C50_schedule (s : State V H) (t : Trace V) (ht : t.iterations = []) (k : Nat) :
    let its := (relaxAfter cfg env start s t k).trace.iterations
    its.Pairwise (· < ·) ∧ its.head? = some 0 ∧
    ∀ i, i ∈ its ↔ i = 0 ∨ (1 ≤ i ∧ i ≤ k ∧ (i % cfg.saveEvery = 0 ∨ i = cfg.maxit) ∧ Accepted cfg env start s t i) := by
  have h := (C50_trace cfg env start s t k).1
  simp only [ht, List.nil_append] at h
  simp only [h]
  refine ⟨?_, rfl, fun i => ?_⟩
  · rw [List.pairwise_cons]
    refine ⟨fun a ha => ?_, ?_⟩
    · simp only [savedIterations, List.mem_filter, List.mem_range'_1] at ha
      omega
    · exact List.Pairwise.filter _ List.pairwise_lt_range'
  · simp only [savedIterations, List.mem_cons, List.mem_filter, List.mem_range'_1, decide_eq_true_eq]
    constructor
    · rintro (h | ⟨⟨a, b⟩, c⟩)
      · exact Or.inl h
      · exact Or.inr ⟨a, by omega, c⟩
    · rintro (h | ⟨a, b, c⟩)
      · exact Or.inl h
      · exact Or.inr ⟨⟨a, by omega⟩, c⟩

/-! ## C51 -/

/-- The same configuration without a perturbation. -/
def noPert : RelaxConfig := { cfg with pertStrength := 0 }

theorem relaxIteration_noPert (i : Nat) (hi : (i : Int) ≠ cfg.applyPertAfter) (l : LoopState V H) :
    relaxIteration cfg env start i l = relaxIteration (noPert cfg) env start i l := by
  have h1 : ∀ x, acceptState cfg env i x = acceptState (noPert cfg) env i x := fun x => by
    simp only [acceptState]
    have hp : ¬ ((i : Int) = cfg.applyPertAfter ∧ cfg.pertStrength > 0) := fun h => hi h.1
    have hq : ¬ ((i : Int) = (noPert cfg).applyPertAfter ∧ (noPert cfg).pertStrength > 0) := fun h => hi h.1
    simp only [if_neg hp, if_neg hq]
    rfl
  have h2 : ∀ x y, record cfg env start i x y = record (noPert cfg) env start i x y := fun x y => rfl
  have h3 : ∀ x, env.step cfg x = env.step (noPert cfg) x := fun x => rfl
  have h4 : ∀ x : State V H, rejected cfg x = rejected (noPert cfg) x := fun x => rfl
  have h5 : cfg.forceTol = (noPert cfg).forceTol := rfl
  unfold relaxIteration
  by_cases hs : l.stopped = true
  · rw [if_pos hs, if_pos hs]
  · rw [if_neg hs, if_neg hs]
    dsimp only
    by_cases hr : rejected cfg (env.step cfg l.state)
    · rw [if_pos hr, if_pos (by rw [← h3, ← h4]; exact hr)]; rfl
    · rw [if_neg hr, if_neg (by rw [← h3, ← h4]; exact hr), h1]; rfl

/-- **C51** (condition: the step of that iteration must be accepted) if iteration `apply_pert_after` is executed and its step accepted, the
field after it is the perturbation of the converged guess; before it, and at every other iteration, the run is the one without
perturbation. -/
theorem C51_perturbation (s : State V H) (t : Trace V) (a : Nat) (ha : 1 ≤ a) (hc : cfg.applyPertAfter = a)
    (hp : 0 < cfg.pertStrength) (hacc : Accepted cfg env start s t a) :
    (∀ k < a, relaxAfter cfg env start s t k = relaxAfter (noPert cfg) env start s t k) ∧
    (relaxAfter cfg env start s t a).state.Bn =
      env.perturb (env.step cfg (relaxAfter cfg env start s t (a - 1)).state).Bguess ∧
    (∀ k, a ≤ k → relaxAfter cfg env start s t (k + 1) = relaxIteration (noPert cfg) env start (k + 1) (relaxAfter cfg env start s t k)) := by
  refine ⟨fun k hk => ?_, ?_, fun k hk => ?_⟩
  · induction k with
    | zero => rfl
    | succ k ih => rw [relaxAfter, ih (by omega), relaxIteration_noPert _ _ _ _ (by rw [hc]; omega)]; rfl
  · obtain ⟨b, rfl⟩ : ∃ b, a = b + 1 := ⟨a - 1, by omega⟩
    have hr := (C49_accepted_iff cfg _).mpr hacc.2
    have hs := hacc.1
    simp only [Nat.add_sub_cancel] at hr hs ⊢
    rw [relaxAfter, relaxIteration, if_neg (by simp [hs])]
    simp only [if_neg hr, acceptState]
    have hcond : ((b + 1 : Nat) : Int) = cfg.applyPertAfter ∧ cfg.pertStrength > 0 := ⟨hc.symm, hp⟩
    simp only [if_pos hcond]
    split_ifs <;> rfl
  · rw [relaxAfter, relaxIteration_noPert _ _ _ _ (by rw [hc]; omega)]

/-- **C51** if the step of iteration `apply_pert_after` is rejected (or the loop has stopped before), the perturbation is never applied:
the whole run is the run without perturbation. -/
theorem C51_perturbation_lost (s : State V H) (t : Trace V) (a : Nat) (ha : 1 ≤ a) (hc : cfg.applyPertAfter = a)
    (hrej : ¬ Accepted cfg env start s t a) (k : Nat) :
    relaxAfter cfg env start s t k = relaxAfter (noPert cfg) env start s t k := by
  induction k with
  | zero => rfl
  | succ k ih =>
    by_cases hk : k + 1 = a
    · subst hk
      have : ¬ ((relaxAfter cfg env start s t k).stopped = false ∧
          ¬ rejected cfg (env.step cfg (relaxAfter cfg env start s t k).state)) := by
        rw [C49_accepted_iff]; exact hrej
      rw [relaxAfter, relaxAfter, ← ih, relaxIteration, relaxIteration]
      by_cases hs : (relaxAfter cfg env start s t k).stopped = true
      · rw [if_pos hs, if_pos hs]
      · have hr : rejected cfg (env.step cfg (relaxAfter cfg env start s t k).state) := by
          by_contra h
          exact this ⟨by simpa using hs, h⟩
        have hr' : rejected (noPert cfg) (env.step (noPert cfg) (relaxAfter cfg env start s t k).state) := hr
        rw [if_neg hs, if_neg hs]
        simp only [if_pos hr, if_pos hr']
        rfl
    · rw [relaxAfter, relaxAfter, ih, relaxIteration_noPert _ _ _ _ (by rw [hc]; omega)]

theorem relaxIteration_accept (i : Nat) (l : LoopState V H) (hl : l.stopped = false) (hr : ¬ rejected cfg (env.step cfg l.state)) :
    (relaxIteration cfg env start i l).state = acceptState cfg env i (env.step cfg l.state) ∧
    (relaxIteration cfg env start i l).trace = record cfg env start i (acceptState cfg env i (env.step cfg l.state)) l.trace ∧
    ((relaxIteration cfg env start i l).stopped = true ↔
      FV.lt ((record cfg env start i (acceptState cfg env i (env.step cfg l.state)) l.trace).force.getLastD .nan) (.fin cfg.forceTol)) := by
  unfold relaxIteration
  rw [if_neg (by simp [hl])]
  dsimp only
  rw [if_neg hr]
  refine ⟨rfl, rfl, ?_⟩
  simp only [decide_eq_true_eq]

/-- **C51** (condition: every iteration is saved) with `save_every = 1` the loop stops after an accepted iteration exactly when the force of
that iteration is below the tolerance. -/
theorem C51_force_stop_every (hsv : cfg.saveEvery = 1) (i : Nat) (l : LoopState V H) (hl : l.stopped = false)
    (hr : ¬ rejected cfg (env.step cfg l.state)) :
    (relaxIteration cfg env start i l).stopped = true ↔
      FV.lt (relaxIteration cfg env start i l).state.forceNorm (.fin cfg.forceTol) := by
  obtain ⟨h1, h2, h3⟩ := relaxIteration_accept cfg env start i l hl hr
  rw [h3, h1, record, if_pos (by simp [hsv, Nat.mod_one])]
  simp only [Trace.append, List.getLastD_concat]

/-- **C51** in general the loop stops after an accepted iteration exactly when the last *saved* force is below the tolerance. -/
theorem C51_force_stop_saved (i : Nat) (l : LoopState V H) (hl : l.stopped = false)
    (hr : ¬ rejected cfg (env.step cfg l.state)) (hne : l.trace.force ≠ []) :
    ∃ f, (relaxIteration cfg env start i l).trace.force.getLast? = some f ∧
      ((relaxIteration cfg env start i l).stopped = true ↔ FV.lt f (.fin cfg.forceTol)) := by
  obtain ⟨h1, h2, h3⟩ := relaxIteration_accept cfg env start i l hl hr
  rw [h3, h2]
  generalize hL : (record cfg env start i (acceptState cfg env i (env.step cfg l.state)) l.trace).force = L
  have : L ≠ [] := by
    rw [← hL]
    simp only [record]
    by_cases h : i % cfg.saveEvery = 0 ∨ i = cfg.maxit
    · rw [if_pos h]; simp [Trace.append]
    · rw [if_neg h]; exact hne
  obtain ⟨L', f, rfl⟩ := List.eq_nil_or_concat L |>.resolve_left this
  refine ⟨f, by simp, ?_⟩
  simp [List.getLastD_concat]

end

/-! ### Concrete runs -/

section demo

theorem step_maxit_one {V H : Type} (upd : State V H → Update V) (tol : ℝ) (ht : tol < 1) (s : State V H) :
    step upd tol 1 s = midpointResiduum upd { s with picardResiduum := .fin 1, picardIterations := 0 } := by
  simp [step, stepperSolve, whileLoop, stepperCond, midpointResiduum, FV.gt, FV.lt, ht, FV.isnan]

/-- Fields are pairs (number of accepted steps, number of perturbations); a step fails with NaN exactly if it would be step number `a`
with the initial time step 1; the force is 5 for the first step and 0 later. -/
noncomputable def demoEnv (a : Nat) : RelaxEnv (Nat × Nat) Unit where
  upd s := ⟨(s.Bn.1 + 1, s.Bn.2), if s.Bn.1 + 1 = a ∧ s.dt = 1 then .nan else .fin 0, .fin (if s.Bn.1 = 0 then 5 else 0), .fin 0⟩
  energy _ := .fin 0
  helicity _ := .fin 0
  divergence _ := .fin 0
  hessian _ := ()
  perturb B := (B.1, B.2 + 1)
  clock _ := 0

/-- A perturbation is configured at iteration `a`. -/
noncomputable def demoCfg (a save : Nat) (ftol : ℝ) : RelaxConfig :=
  ⟨1000, 1 / 2, 1, 5, 1, ftol, false, 1, 1, a, save, false⟩

/-- Start: field (0, 0), `dt = 1`. -/
def demoState : State (Nat × Nat) Unit := ⟨(0, 0), (0, 0), 1, 0, (), 0, .nan, .nan, .nan⟩

/-- Empty lists. -/
def emptyTrace (V : Type) : Trace V := ⟨[], [], [], [], [], [], [], [], [], [], []⟩

theorem demo_step (a b save : Nat) (ftol : ℝ) (s : State (Nat × Nat) Unit) : (demoEnv b).step (demoCfg a save ftol) s =
    midpointResiduum (demoEnv b).upd { s with picardResiduum := .fin 1, picardIterations := 0 } := by
  rw [RelaxEnv.step]; exact step_maxit_one _ _ (by norm_num [demoCfg]) s

/-- **C51** for every iteration `a >= 1` there is a run in which only the step of iteration `a` is rejected, all later ones are accepted,
and the perturbation configured for iteration `a` is never applied (the second component counts the perturbations). -/
theorem C51_not_applied_once (a : Nat) (ha : 1 ≤ a) (k : Nat) :
    (relaxAfter (demoCfg a 1 (-1)) (demoEnv a) 0 demoState (emptyTrace _) k).stopped = false ∧
    (relaxAfter (demoCfg a 1 (-1)) (demoEnv a) 0 demoState (emptyTrace _) k).state.Bn = (if k < a then k else k - 1, 0) ∧
    (relaxAfter (demoCfg a 1 (-1)) (demoEnv a) 0 demoState (emptyTrace _) k).state.dt = (if k < a then 1 else 1 / 2) := by
  induction k with
  | zero =>
    refine ⟨rfl, ?_, ?_⟩
    · simp [relaxAfter, relaxInit, demoState]
    · rw [if_pos (by omega)]; simp [relaxAfter, relaxInit, demoState]
  | succ k ih =>
    obtain ⟨h1, h2, h3⟩ := ih
    generalize hl : relaxAfter (demoCfg a 1 (-1)) (demoEnv a) 0 demoState (emptyTrace _) k = l at h1 h2 h3
    by_cases hk : k + 1 = a
    · have hka : k < a := by omega
      rw [if_pos hka] at h2 h3
      have hr : rejected (demoCfg a 1 (-1)) ((demoEnv a).step (demoCfg a 1 (-1)) l.state) := by
        rw [demo_step]
        right
        simp [midpointResiduum, demoEnv, h2, h3, hk, FV.isfinite]
      obtain ⟨e1, e2, e3, e4, e5, e6, e7⟩ := C49_rejected_step _ _ 0 (k + 1) l h1 hr
      rw [relaxAfter, hl]
      refine ⟨e7, ?_, ?_⟩
      · rw [e1, h2, if_neg (by omega)]; simp
      · rw [e3, h3, if_neg (by omega)]
    · have hnr : ¬ rejected (demoCfg a 1 (-1)) ((demoEnv a).step (demoCfg a 1 (-1)) l.state) := by
        rw [C49_accepted_iff, demo_step]
        refine ⟨0, ?_, by norm_num [demoCfg]⟩
        simp only [midpointResiduum, demoEnv, h2, h3]
        rw [if_neg]
        rintro ⟨e, e'⟩
        split_ifs at e e'
        · exact hk e
        · norm_num at e'
      obtain ⟨e1, e2, e3, e4⟩ := C49_accepted_step _ _ 0 (k + 1) l h1 hnr (by
        rintro ⟨h, _⟩
        simp only [demoCfg] at h
        omega)
      rw [relaxAfter, hl]
      refine ⟨?_, ?_, ?_⟩
      · have := (C51_force_stop_every (demoCfg a 1 (-1)) (demoEnv a) 0 rfl (k + 1) l h1 hnr).not
        rw [Bool.not_eq_true] at this
        rw [this, (relaxIteration_accept _ _ 0 (k + 1) l h1 hnr).1]
        have : (acceptState (demoCfg a 1 (-1)) (demoEnv a) (k + 1) ((demoEnv a).step (demoCfg a 1 (-1)) l.state)).forceNorm =
            ((demoEnv a).step (demoCfg a 1 (-1)) l.state).forceNorm := by
          simp only [acceptState, State.updateDt, State.updateBn, State.updateHessian]
          split_ifs <;> rfl
        rw [this, demo_step]
        simp only [midpointResiduum, demoEnv, demoCfg, FV.lt]
        split_ifs <;> norm_num
      · rw [e1, demo_step]
        simp only [midpointResiduum, demoEnv, h2]
        split_ifs <;> simp <;> omega
      · rw [e4]
        simp only [demoCfg, h3]
        split_ifs <;> first | (exfalso; omega) | norm_num

/-- **C51** for every `save_every = n`: a run in which the force is 0, below the tolerance 1, at all iterations from the second on, but the
loop goes on at least until iteration `n` because the last saved force is 5. -/
theorem C51_force_stale (n k : Nat) (hk : k < n) (hk' : k < 1000) :
    let l := relaxAfter (demoCfg 2000 n 1) (demoEnv 0) 0 demoState (emptyTrace _) k
    l.stopped = false ∧ l.state.Bn.1 = k ∧ l.trace.force = [.fin 5] ∧ (2 ≤ k → l.state.forceNorm = .fin 0) := by
  induction k with
  | zero =>
    refine ⟨rfl, rfl, ?_, fun h => by omega⟩
    simp only [relaxAfter, relaxInit, Trace.append, demo_step, emptyTrace]
    simp [midpointResiduum, demoEnv, demoState]
  | succ k ih =>
    obtain ⟨h1, h2, h3, h4⟩ := ih (by omega) (by omega)
    rw [relaxAfter]
    generalize relaxAfter (demoCfg 2000 n 1) (demoEnv 0) 0 demoState (emptyTrace _) k = l at h1 h2 h3 h4
    have hnr : ¬ rejected (demoCfg 2000 n 1) ((demoEnv 0).step (demoCfg 2000 n 1) l.state) := by
      rw [C49_accepted_iff, demo_step]
      exact ⟨0, by simp [midpointResiduum, demoEnv], by norm_num [demoCfg]⟩
    obtain ⟨e1, e2, e3⟩ := relaxIteration_accept _ _ 0 (k + 1) l h1 hnr
    have ea := (C49_accepted_step _ _ 0 (k + 1) l h1 hnr (by
      rintro ⟨h, _⟩
      simp only [demoCfg] at h
      omega)).1
    have hrec : record (demoCfg 2000 n 1) (demoEnv 0) 0 (k + 1)
        (acceptState (demoCfg 2000 n 1) (demoEnv 0) (k + 1) ((demoEnv 0).step (demoCfg 2000 n 1) l.state)) l.trace = l.trace := by
      rw [record, if_neg]
      rintro (h | h)
      · simp only [demoCfg] at h
        rw [Nat.mod_eq_of_lt hk] at h
        omega
      · simp only [demoCfg] at h
        omega
    refine ⟨?_, ?_, ?_, fun hk2 => ?_⟩
    · rw [← Bool.not_eq_true, e3, hrec, h3]
      norm_num [FV.lt, demoCfg]
    · rw [ea, demo_step]
      simp [midpointResiduum, demoEnv, h2]
    · rw [e2, hrec, h3]
    · rw [e1]
      have : (acceptState (demoCfg 2000 n 1) (demoEnv 0) (k + 1) ((demoEnv 0).step (demoCfg 2000 n 1) l.state)).forceNorm =
          ((demoEnv 0).step (demoCfg 2000 n 1) l.state).forceNorm := by
        simp only [acceptState, State.updateDt, State.updateBn, State.updateHessian]
        split_ifs <;> rfl
      rw [this, demo_step]
      simp only [midpointResiduum, demoEnv, h2]
      rw [if_neg (by omega)]

end demo

/-! ## Cases: a stepper that adds 1 to the field and reports the residual `r` -/

/-- The field counts the updates; residual `r`, force norm 3, velocity norm 1. -/
def caseEnv (r : ℝ) : RelaxEnv Nat Unit where
  upd s := ⟨s.Bn + 1, .fin r, .fin 3, .fin 1⟩
  energy _ := .fin 0
  helicity _ := .fin 0
  divergence _ := .fin 0
  hessian _ := ()
  perturb b := b + 100
  clock _ := 0

/-- Tolerance 1/2, one Picard iteration, a perturbation after iteration 2. -/
noncomputable def caseCfg (ftol : ℝ) : RelaxConfig := ⟨10, 1 / 2, 1, 5, 2, ftol, true, 1, 1, 2, 1, true⟩

def caseState : State Nat Unit := ⟨0, 0, 1, 0, (), 0, .nan, .nan, .nan⟩

theorem case_step (r ftol : ℝ) (s : State Nat Unit) : (caseEnv r).step (caseCfg ftol) s =
    midpointResiduum (caseEnv r).upd { s with picardResiduum := .fin 1, picardIterations := 0 } := by
  rw [RelaxEnv.step]; exact step_maxit_one _ _ (by norm_num [caseCfg]) s

theorem case_accepted {r ftol : ℝ} (hr : r ≤ 1 / 2) (s : State Nat Unit) : ¬ rejected (caseCfg ftol) ((caseEnv r).step (caseCfg ftol) s) := by
  rw [C49_accepted_iff, case_step]
  exact ⟨r, rfl, hr⟩

theorem case_rejected {r ftol : ℝ} (hr : 1 / 2 < r) (s : State Nat Unit) : rejected (caseCfg ftol) ((caseEnv r).step (caseCfg ftol) s) := by
  by_contra h
  rw [C49_accepted_iff, case_step] at h
  obtain ⟨x, hx, hx'⟩ := h
  injection hx with hx
  have : (caseCfg ftol).solverTol = 1 / 2 := rfl
  rw [this, ← hx] at hx'
  linarith

example := C48_result (C48_picard_terminates (caseEnv 0).upd (1 / 2) 20 caseState)
example := C48_first (C48_picard_terminates (caseEnv 0).upd (1 / 2) 20 caseState)
example := C48_frame (C48_picard_terminates (caseEnv 0).upd (1 / 2) 20 caseState)
example := C48_last (C48_picard_terminates (caseEnv 0).upd (1 / 2) 20 caseState) (by norm_num) (by norm_num)
example := C49_rejected_step (caseCfg 4) (caseEnv 2) 0 1 (relaxInit (caseCfg 4) (caseEnv 2) 0 caseState (emptyTrace _)) rfl (case_rejected (by norm_num) _)
example := C49_reported_step (caseCfg 4) (caseEnv 0) 0 1 (relaxInit (caseCfg 4) (caseEnv 0) 0 caseState (emptyTrace _)) rfl
example := C49_hessian (caseCfg 4) (caseEnv 0) 0 1 (relaxInit (caseCfg 4) (caseEnv 0) 0 caseState (emptyTrace _)) rfl (case_accepted (by norm_num) _)
example := C49_dt_decreases (caseCfg 4) (caseEnv 2) 0 1 (relaxInit (caseCfg 4) (caseEnv 2) 0 caseState (emptyTrace _)) rfl (case_rejected (by norm_num) _)
  (by norm_num [relaxInit, caseState])
example := C49_accepted_step (caseCfg 4) (caseEnv 0) 0 1 (relaxInit (caseCfg 4) (caseEnv 0) 0 caseState (emptyTrace _)) rfl (case_accepted (by norm_num) _)
  (by norm_num [caseCfg])
example := C49_dt_positive (caseCfg 4) (caseEnv 0) 0 caseState (emptyTrace _) (by norm_num [caseState]) (by norm_num [caseCfg]) 7
example := C49_all_rejected (caseCfg 4) (caseEnv 2) 0 caseState (emptyTrace _) 7 fun j _ => case_rejected (by norm_num) _
example := C50_aligned (caseCfg 4) (caseEnv 0) 0 caseState (emptyTrace _) 0 7 rfl rfl rfl rfl rfl rfl rfl rfl rfl rfl rfl

theorem case_stops : (relaxAfter (caseCfg 4) (caseEnv 0) 0 caseState (emptyTrace _) 1).stopped = true := by
  refine (C51_force_stop_every (caseCfg 4) (caseEnv 0) 0 rfl 1 _ rfl (case_accepted (by norm_num) _)).2 ?_
  have h := (C49_reported_step (caseCfg 4) (caseEnv 0) 0 1 (relaxInit (caseCfg 4) (caseEnv 0) 0 caseState (emptyTrace _)) rfl)
  have e : (relaxIteration (caseCfg 4) (caseEnv 0) 0 1 (relaxInit (caseCfg 4) (caseEnv 0) 0 caseState (emptyTrace _))).state.forceNorm = .fin 3 := by
    have := h.2.2.1
    rw [case_step] at this
    exact this
  show FV.lt (relaxIteration (caseCfg 4) (caseEnv 0) 0 1 (relaxInit (caseCfg 4) (caseEnv 0) 0 caseState (emptyTrace _))).state.forceNorm _
  rw [e]
  norm_num [FV.lt, caseCfg]
example := C49_stopped (caseCfg 4) (caseEnv 0) 0 caseState (emptyTrace _) 1 5 case_stops
example := C51_force_stop_saved (caseCfg 4) (caseEnv 0) 0 1 (relaxInit (caseCfg 4) (caseEnv 0) 0 caseState (emptyTrace _)) rfl (case_accepted (by norm_num) _)
  (by simp [relaxInit, Trace.append])
example := C51_force_stale 3 2 (by norm_num) (by norm_num)

theorem case_goes_on : (relaxAfter (caseCfg 1) (caseEnv 0) 0 caseState (emptyTrace _) 1).stopped = false := by
  rw [Bool.eq_false_iff, Ne]
  refine mt (C51_force_stop_every (caseCfg 1) (caseEnv 0) 0 rfl 1 (relaxInit (caseCfg 1) (caseEnv 0) 0 caseState (emptyTrace _)) rfl
    (case_accepted (by norm_num) _)).1 ?_
  have h := (C49_reported_step (caseCfg 1) (caseEnv 0) 0 1 (relaxInit (caseCfg 1) (caseEnv 0) 0 caseState (emptyTrace _)) rfl).2.2.1
  rw [case_step] at h
  rw [h]
  norm_num [FV.lt, caseCfg, midpointResiduum, caseEnv]
example := C51_perturbation (caseCfg 1) (caseEnv 0) 0 caseState (emptyTrace _) 2 (by norm_num) rfl (by norm_num [caseCfg])
  ⟨case_goes_on, 0, by rw [case_step]; rfl, by norm_num [caseCfg]⟩
example := C51_perturbation_lost (caseCfg 1) (caseEnv 2) 0 caseState (emptyTrace _) 2 (by norm_num) rfl
  (fun h => absurd (case_rejected (ftol := 1) (show (1 / 2 : ℝ) < 2 by norm_num) _) ((C49_accepted_iff _ _).2 h.2))

end Mrx.Props
