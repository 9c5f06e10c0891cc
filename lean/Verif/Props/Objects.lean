import Verif.Model.Objects
import Verif.Props.Relaxation

/-!
# C52, C54: what the caller sees after `run_relaxation_loop`
-/

set_option linter.unusedSectionVars false
set_option linter.unusedVariables false

namespace Mrx.Props
open Spec

section
variable {V H : Type}

/-- What one call of `append_to_trace_dict` adds to the list under each key. -/
def entry (start : ℝ) (i : Nat) (f E Hel dvg v : FV) (pi : Int) (e : FV) (dt time : ℝ) (B : Option V) : TraceKey → List (Val V)
  | .iterations => [.nat i]
  | .force => [.fv f]
  | .energy => [.fv E]
  | .helicity => [.fv Hel]
  | .divergence => [.fv dvg]
  | .picardIterations => [.int pi]
  | .picardErrors => [.fv e]
  | .timesteps => [.real dt]
  | .velocity => [.fv v]
  | .wallTime => [.real (time - start)]
  | .Bfields => match B with
    | none => []
    | some b => [.field b]

/-- The contents of a trace as lists of values. -/
def Trace.vals (t : Trace V) : TraceKey → List (Val V)
  | .iterations => t.iterations.map .nat
  | .force => t.force.map .fv
  | .energy => t.energy.map .fv
  | .helicity => t.helicity.map .fv
  | .divergence => t.divergence.map .fv
  | .picardIterations => t.picardIterations.map .int
  | .picardErrors => t.picardErrors.map .fv
  | .timesteps => t.timesteps.map .real
  | .velocity => t.velocity.map .fv
  | .wallTime => t.wallTime.map .real
  | .Bfields => t.Bfields.map .field

theorem vals_append (t : Trace V) (start : ℝ) (i : Nat) (f E Hel dvg v : FV) (pi : Int) (e : FV) (dt time : ℝ) (B : Option V)
    (k : TraceKey) : Trace.vals (t.append start i f E Hel dvg v pi e dt time B) k =
      Trace.vals t k ++ entry start i f E Hel dvg v pi e dt time B k := by
  cases k <;> simp [Trace.vals, Trace.append, entry]
  cases B <;> simp

variable (d : TraceDict) (hd : Function.Injective d.lists)
include hd

theorem dict_append (start : ℝ) (i : Nat) (f E Hel dvg v : FV) (pi : Int) (e : FV) (dt time : ℝ) (B : Option V)
    (m : Mem V H) (k : TraceKey) : (d.append start i f E Hel dvg v pi e dt time B m).lists (d.lists k) =
      m.lists (d.lists k) ++ entry start i f E Hel dvg v pi e dt time B k := by
  cases B <;> cases k <;> simp [TraceDict.append, Mem.push, Function.update_apply, hd.eq_iff, entry]

omit hd in
theorem dict_append_frame (start : ℝ) (i : Nat) (f E Hel dvg v : FV) (pi : Int) (e : FV) (dt time : ℝ) (B : Option V)
    (m : Mem V H) : (d.append start i f E Hel dvg v pi e dt time B m).states = m.states ∧
    (d.append start i f E Hel dvg v pi e dt time B m).nextState = m.nextState ∧
    (d.append start i f E Hel dvg v pi e dt time B m).nextList = m.nextList ∧
    ∀ r, (∀ k, r ≠ d.lists k) → (d.append start i f E Hel dvg v pi e dt time B m).lists r = m.lists r := by
  cases B <;> simp only [TraceDict.append, Mem.push, Function.update_apply, true_and] <;> intro r hr <;> simp [hr]

/-- The object-level loop and the value-level loop are in the same state. -/
structure Sim (l : PyLoop V H) (l' : LoopState V H) : Prop where
  state : l.state = l'.state
  stopped : l.stopped = l'.stopped
  cur : l.cur < l.mem.nextState
  lists : ∀ k, l.mem.lists (d.lists k) = Trace.vals l'.trace k

/-- Everything that existed at the start is unchanged, except for the lists of the dictionary. -/
structure Frame (m m' : Mem V H) : Prop where
  next : m.nextState ≤ m'.nextState
  nextList : m.nextList = m'.nextList
  states : ∀ r < m.nextState, m'.states r = m.states r
  lists : ∀ r, (∀ k, r ≠ d.lists k) → m'.lists r = m.lists r

omit hd in
theorem Frame.refl (m : Mem V H) : Frame d m m := ⟨le_refl _, rfl, fun _ _ => rfl, fun _ _ => rfl⟩

omit hd in
theorem Frame.trans {m m' m'' : Mem V H} (h : Frame d m m') (h' : Frame d m' m'') : Frame d m m'' :=
  ⟨h.next.trans h'.next, h.nextList.trans h'.nextList, fun r hr => (h'.states r (lt_of_lt_of_le hr h.next)).trans (h.states r hr),
    fun r hr => (h'.lists r hr).trans (h.lists r hr)⟩

omit hd in
theorem assign_state (l : PyLoop V H) (f : State V H → State V H) : (l.assign f).state = f l.state := by
  simp [PyLoop.assign, PyLoop.state, Mem.newState]

omit hd in
theorem assign_frame (l : PyLoop V H) (f : State V H → State V H) : Frame d l.mem (l.assign f).mem ∧
    (l.assign f).stopped = l.stopped ∧ (l.assign f).cur < (l.assign f).mem.nextState ∧ (l.assign f).mem.lists = l.mem.lists := by
  refine ⟨⟨by simp [PyLoop.assign, Mem.newState], rfl, fun r hr => ?_, fun _ _ => rfl⟩, rfl, by simp [PyLoop.assign, Mem.newState], rfl⟩
  simp only [PyLoop.assign, Mem.newState]
  rw [Function.update_of_ne (by omega)]

variable (cfg : RelaxConfig) (env : RelaxEnv V H) (start : ℝ)

omit hd in
theorem pyAccept_sim (i : Nat) (l : PyLoop V H) : (pyAccept cfg env i l).state = acceptState cfg env i l.state ∧
    Frame d l.mem (pyAccept cfg env i l).mem ∧ (pyAccept cfg env i l).stopped = l.stopped ∧
    (pyAccept cfg env i l).cur < (pyAccept cfg env i l).mem.nextState ∧ (pyAccept cfg env i l).mem.lists = l.mem.lists := by
  simp only [pyAccept, acceptState]
  by_cases h1 : (i : Int) = cfg.applyPertAfter ∧ cfg.pertStrength > 0 <;>
  by_cases h2 : cfg.precond = true ∧ i % cfg.precondEvery = 0 <;>
  (first | simp only [if_pos h1] | simp only [if_neg h1]) <;>
  (first | simp only [if_pos h2] | simp only [if_neg h2]) <;>
  simp only [assign_state, true_and] <;>
  refine ⟨?_, rfl, (assign_frame d _ _).2.2.1, rfl⟩ <;>
  repeat' first
    | exact (assign_frame d _ _).1
    | refine Frame.trans d ?_ (assign_frame d _ _).1

theorem pyIteration_sim (i : Nat) (l : PyLoop V H) (l' : LoopState V H) (h : Sim d l l') :
    Sim d (pyIteration cfg env start d i l) (relaxIteration cfg env start i l') ∧ Frame d l.mem (pyIteration cfg env start d i l).mem := by
  unfold pyIteration relaxIteration
  by_cases hs : l.stopped = true
  · rw [if_pos hs, if_pos (by rw [← h.stopped]; exact hs)]
    exact ⟨h, Frame.refl d _⟩
  · have hs' : ¬ l'.stopped = true := by rw [← h.stopped]; exact hs
    rw [if_neg hs, if_neg hs']
    dsimp only
    have e1 : (l.assign (env.step cfg)).state = env.step cfg l'.state := by rw [assign_state, h.state]
    by_cases hr : rejected cfg (l.assign (env.step cfg)).state
    · have hr' : rejected cfg (env.step cfg l'.state) := by rw [← e1]; exact hr
      rw [if_pos hr, if_pos hr']
      refine ⟨⟨?_, ?_, (assign_frame d _ _).2.2.1, ?_⟩, ?_⟩
      · rw [assign_state, assign_state, e1]; rfl
      · exact h.stopped
      · exact h.lists
      · exact Frame.trans d (Frame.trans d (assign_frame d _ _).1 (assign_frame d _ _).1) (assign_frame d _ _).1
    · have hr' : ¬ rejected cfg (env.step cfg l'.state) := by rw [← e1]; exact hr
      rw [if_neg hr, if_neg hr']
      obtain ⟨a1, a2, a3, a4, a5⟩ := pyAccept_sim d cfg env i (l.assign (env.step cfg))
      rw [e1] at a1
      have a6 : ∀ k, (pyAccept cfg env i (l.assign (env.step cfg))).mem.lists (d.lists k) = Trace.vals l'.trace k := by
        intro k
        rw [a5, (assign_frame d _ _).2.2.2, h.lists]
      have aF := Frame.trans d (assign_frame d l (env.step cfg)).1 a2
      generalize pyAccept cfg env i (l.assign (env.step cfg)) = l1 at a1 a2 a3 a4 a5 a6 aF
      rw [← a1]
      have hrec : (pyRecord cfg env start d i l1).state = l1.state ∧ Frame d l1.mem (pyRecord cfg env start d i l1).mem ∧
          (pyRecord cfg env start d i l1).cur < (pyRecord cfg env start d i l1).mem.nextState ∧
          ∀ k, (pyRecord cfg env start d i l1).mem.lists (d.lists k) = Trace.vals (record cfg env start i l1.state l'.trace) k := by
        unfold pyRecord record
        by_cases hc : i % cfg.saveEvery = 0 ∨ i = cfg.maxit
        · rw [if_pos hc, if_pos hc]
          dsimp only
          obtain ⟨f1, f2, f3, f4⟩ := dict_append_frame d start i l1.state.forceNorm (env.energy l1.state.Bn) (env.helicity l1.state.Bn)
            (env.divergence l1.state.Bn) l1.state.velocityNorm l1.state.picardIterations l1.state.picardResiduum l1.state.dt (env.clock i)
            (if cfg.saveB then some l1.state.Bn else none) l1.mem
          refine ⟨?_, ⟨le_of_eq f2.symm, f3.symm, fun r _ => congrFun f1 r, f4⟩, ?_, fun k => ?_⟩
          · simp only [PyLoop.state]
            exact congrFun f1 l1.cur
          · rw [f2]; exact a4
          · rw [dict_append d hd, vals_append, a6]
        · rw [if_neg hc, if_neg hc]
          exact ⟨rfl, Frame.refl d _, a4, a6⟩
      obtain ⟨r1, r2, r3, r4⟩ := hrec
      refine ⟨⟨r1, ?_, r3, r4⟩, Frame.trans d aF r2⟩
      have : ((pyRecord cfg env start d i l1).mem.lists (d.lists .force)).map Val.asFV =
          (record cfg env start i l1.state l'.trace).force := by
        rw [r4]
        simp [Trace.vals, Val.asFV, Function.comp_def]
      exact decide_eq_decide.mpr (by rw [this])

theorem pyAfter_sim (m : Mem V H) (r : Nat) (t : Trace V) (hr : r < m.nextState)
    (ht : ∀ k, m.lists (d.lists k) = Trace.vals t k) (k : Nat) :
    Sim d (pyAfter cfg env start d m r k) (relaxAfter cfg env start (m.states r) t k) ∧
      Frame d m (pyAfter cfg env start d m r k).mem := by
  induction k with
  | zero =>
    rw [pyAfter, relaxAfter, pyInit, relaxInit]
    dsimp only
    generalize env.step cfg (m.states r) = dry
    obtain ⟨f1, f2, f3, f4⟩ := dict_append_frame d start 0 dry.forceNorm (env.energy (m.states r).Bn) (env.helicity (m.states r).Bn)
      (env.divergence (m.states r).Bn) dry.velocityNorm 0 (.fin 0) dry.dt (env.clock 0)
      (if cfg.saveB then some (m.states r).Bn else none) (m.newState dry)
    refine ⟨⟨?_, rfl, ?_, fun k => ?_⟩, ⟨?_, ?_, fun r' hr' => ?_, fun r' hr' => ?_⟩⟩
    · simp only [PyLoop.state]
      rw [f1]
      simp only [Mem.newState]
      rw [Function.update_of_ne (by omega)]
    · show r < (d.append _ _ _ _ _ _ _ _ _ _ _ _ (m.newState dry)).nextState
      rw [f2]
      show r < m.nextState + 1
      omega
    · rw [dict_append d hd, vals_append]
      rw [← ht k]; rfl
    · rw [f2]; simp [Mem.newState]
    · rw [f3]; rfl
    · rw [f1]
      simp only [Mem.newState]
      rw [Function.update_of_ne (by omega)]
    · rw [f4 r' hr']; rfl
  | succ k ih =>
    rw [pyAfter, relaxAfter]
    obtain ⟨h1, h2⟩ := pyIteration_sim d hd cfg env start (k + 1) _ _ ih.1
    exact ⟨h1, Frame.trans d ih.2 h2⟩

/-! ## C52 -/

/-- **C52** `run_relaxation_loop` changes no state object that existed before: the caller's `state` (at address `r`) still holds the initial
field, whatever happened in the loop. -/
theorem C52_caller_state_unchanged (m m' : Mem V H) (r : Nat) (t : Trace V) (hr : r < m.nextState)
    (ht : ∀ k, m.lists (d.lists k) = Trace.vals t k) (h : pyRun cfg env d m r = .ok m') : m'.states r = m.states r := by
  unfold pyRun at h
  split at h
  · cases h
  · cases h
    exact (pyAfter_sim d hd cfg env _ m r t hr ht cfg.maxit).2.states r hr

/-- **C52** hence whenever the relaxation changes the field (the local state after the last iteration has a different field), the caller's
state does not hold the relaxed field. -/
theorem C52_caller_not_relaxed (m m' : Mem V H) (r : Nat) (t : Trace V) (hr : r < m.nextState)
    (ht : ∀ k, m.lists (d.lists k) = Trace.vals t k) (hs : d.startTime = some start)
    (hne : (relaxAfter cfg env start (m.states r) t cfg.maxit).state.Bn ≠ (m.states r).Bn)
    (h : pyRun cfg env d m r = .ok m') : (m'.states r).Bn ≠ (relaxAfter cfg env start (m.states r) t cfg.maxit).state.Bn := by
  rw [C52_caller_state_unchanged d hd cfg env m m' r t hr ht h]
  exact hne.symm

/-- **C52** (condition: fields are saved and the last iteration was executed and accepted) the relaxed field can be read from the trace
dictionary instead: it is the last element of the list of saved fields. -/
theorem C52_relaxed_in_trace_last (m m' : Mem V H) (r : Nat) (t : Trace V) (hr : r < m.nextState)
    (ht : ∀ k, m.lists (d.lists k) = Trace.vals t k) (hs : d.startTime = some start) (hB : cfg.saveB = true) (h1 : 1 ≤ cfg.maxit)
    (hacc : Accepted cfg env start (m.states r) t cfg.maxit) (h : pyRun cfg env d m r = .ok m') :
    (m'.lists (d.lists .Bfields)).getLast? = some (.field (relaxAfter cfg env start (m.states r) t cfg.maxit).state.Bn) := by
  unfold pyRun at h
  rw [hs] at h
  cases h
  have e := (pyAfter_sim d hd cfg env start m r t hr ht cfg.maxit).1.lists .Bfields
  rw [e]
  have e2 := (C50_trace cfg env start (m.states r) t cfg.maxit).2.2.2.2.2.2.2.2.2.2
  simp only [Trace.vals]
  rw [e2, if_pos hB]
  obtain ⟨n, hn⟩ : ∃ n, cfg.maxit = n + 1 := ⟨cfg.maxit - 1, by omega⟩
  have : savedIterations cfg env start (m.states r) t cfg.maxit =
      savedIterations cfg env start (m.states r) t n ++ [cfg.maxit] := by
    rw [hn] at hacc ⊢
    simp only [savedIterations, List.range'_1_concat, List.filter_append, List.append_cancel_left_eq]
    rw [show 1 + n = n + 1 by omega]
    simp [List.filter_cons, hn, hacc]
  rw [this]
  simp only [List.map_append, List.map_cons, List.map_nil, List.getLast?_append, List.getLast?_cons, List.getLast?_nil]
  simp

/-! ## C54 -/

omit hd in
/-- **C54** what a run does and records does not depend on what the lists contained before: same states, same stopping, and the recorded
entries are appended to the previous contents. -/
theorem C54_run_appends (s : State V H) (t : Trace V) (k : Nat) :
    (relaxAfter cfg env start s t k).state = (relaxAfter cfg env start s (emptyTrace V) k).state ∧
    (relaxAfter cfg env start s t k).stopped = (relaxAfter cfg env start s (emptyTrace V) k).stopped ∧
    (∀ key, Trace.vals (relaxAfter cfg env start s t k).trace key =
      Trace.vals t key ++ Trace.vals (relaxAfter cfg env start s (emptyTrace V) k).trace key) ∧
    (relaxAfter cfg env start s t k).trace.force = t.force ++ (relaxAfter cfg env start s (emptyTrace V) k).trace.force ∧
    (relaxAfter cfg env start s (emptyTrace V) k).trace.force ≠ [] := by
  induction k with
  | zero =>
    simp only [relaxAfter, relaxInit, true_and]
    refine ⟨fun key => ?_, by simp [Trace.append, emptyTrace], by simp [Trace.append]⟩
    rw [vals_append, vals_append]
    cases key <;> simp [Trace.vals, emptyTrace]
  | succ k ih =>
    obtain ⟨h1, h2, h3, h4, h5⟩ := ih
    rw [relaxAfter, relaxAfter]
    generalize relaxAfter cfg env start s t k = l at h1 h2 h3 h4
    generalize relaxAfter cfg env start s (emptyTrace V) k = l' at h1 h2 h3 h4 h5
    by_cases hs : l'.stopped = true
    · rw [relaxIteration, relaxIteration, if_pos (h2.trans hs), if_pos hs]
      exact ⟨h1, h2, h3, h4, h5⟩
    · have hs1 : l'.stopped = false := by simpa using hs
      have hs2 : l.stopped = false := h2.trans hs1
      by_cases hr : rejected cfg (env.step cfg l'.state)
      · have hr2 : rejected cfg (env.step cfg l.state) := by rw [h1]; exact hr
        have e : ∀ (x : LoopState V H), x.stopped = false → rejected cfg (env.step cfg x.state) →
            relaxIteration cfg env start (k + 1) x = { x with state := rejectState (env.step cfg x.state) } := by
          intro x hx hr
          rw [relaxIteration, if_neg (by simp [hx])]
          simp only [if_pos hr]
        rw [e l hs2 hr2, e l' hs1 hr, h1]
        exact ⟨rfl, h2, h3, h4, h5⟩
      · have hr2 : ¬ rejected cfg (env.step cfg l.state) := by rw [h1]; exact hr
        obtain ⟨a1, a2, a3⟩ := relaxIteration_accept cfg env start (k + 1) l hs2 hr2
        obtain ⟨b1, b2, b3⟩ := relaxIteration_accept cfg env start (k + 1) l' hs1 hr
        have hrec : (∀ key, Trace.vals (record cfg env start (k + 1) (acceptState cfg env (k + 1) (env.step cfg l'.state)) l.trace) key =
            Trace.vals t key ++
              Trace.vals (record cfg env start (k + 1) (acceptState cfg env (k + 1) (env.step cfg l'.state)) l'.trace) key) ∧
            (record cfg env start (k + 1) (acceptState cfg env (k + 1) (env.step cfg l'.state)) l.trace).force = t.force ++
              (record cfg env start (k + 1) (acceptState cfg env (k + 1) (env.step cfg l'.state)) l'.trace).force ∧
            (record cfg env start (k + 1) (acceptState cfg env (k + 1) (env.step cfg l'.state)) l'.trace).force ≠ [] := by
          generalize acceptState cfg env (k + 1) (env.step cfg l'.state) = s'
          simp only [record]
          by_cases hc : (k + 1) % cfg.saveEvery = 0 ∨ k + 1 = cfg.maxit
          · rw [if_pos hc, if_pos hc]
            refine ⟨fun key => ?_, by simp [Trace.append, h4], by simp [Trace.append]⟩
            rw [vals_append, vals_append, h3, List.append_assoc]
          · rw [if_neg hc, if_neg hc]
            exact ⟨h3, h4, h5⟩
        rw [h1] at a1 a2 a3
        refine ⟨a1.trans b1.symm, ?_, ?_, ?_, ?_⟩
        · rw [Bool.eq_iff_iff, a3, b3, hrec.2.1]
          generalize hL : (record cfg env start (k + 1) (acceptState cfg env (k + 1) (env.step cfg l'.state)) l'.trace).force = L
          rw [hL] at hrec
          obtain ⟨L', f, rfl⟩ := List.eq_nil_or_concat L |>.resolve_left hrec.2.2
          simp only [List.concat_eq_append, ← List.append_assoc, List.getLastD_concat]
        · rw [a2, b2]; exact hrec.1
        · rw [a2, b2]; exact hrec.2.1
        · rw [b2]; exact hrec.2.2

omit hd in
/-- One run of a program: configuration, environment, start time, and the address of the initial state. -/
structure RunSpec (V H : Type) where
  cfg : RelaxConfig
  env : RelaxEnv V H
  start : ℝ
  state : Nat

/-- A program that makes several runs, each with `trace_dict = default_trace_dict.copy()` and its own start time. -/
noncomputable def runAll (d0 : TraceDict) (m : Mem V H) : List (RunSpec V H) → Except String (Mem V H)
  | [] => .ok m
  | R :: Rs => match pyRun R.cfg R.env (d0.copyWithStart R.start) m R.state with
    | .ok m' => runAll d0 m' Rs
    | .error e => .error e

/-- What a run records when it is the only one. -/
noncomputable def ownTrace (m : Mem V H) (R : RunSpec V H) : Trace V :=
  (relaxAfter R.cfg R.env R.start (m.states R.state) (emptyTrace V) R.cfg.maxit).trace

/-- **C54** fails for `default_trace_dict.copy()`: after any number of runs, the lists seen by *every* run (they are the same objects)
contain the entries of all runs one after the other, not only its own. -/
theorem C54_runs_share_trace (Rs : List (RunSpec V H)) (m : Mem V H) (hm : ∀ R ∈ Rs, R.state < m.nextState)
    (t : Trace V) (ht : ∀ k, m.lists (d.lists k) = Trace.vals t k) :
    ∃ m', runAll d m Rs = .ok m' ∧
      ∀ k, m'.lists (d.lists k) = Trace.vals t k ++ (Rs.map fun R => Trace.vals (ownTrace m R) k).flatten := by
  induction Rs generalizing m t with
  | nil => exact ⟨m, rfl, fun k => by simp [ht]⟩
  | cons R Rs ih =>
    have hinj : Function.Injective (d.copyWithStart R.start).lists := hd
    obtain ⟨s1, f1⟩ := pyAfter_sim (d.copyWithStart R.start) hinj R.cfg R.env R.start m R.state t (hm R (by simp)) ht R.cfg.maxit
    have hlists := s1.lists
    have hown : ∀ R' ∈ Rs, ownTrace (pyAfter R.cfg R.env R.start (d.copyWithStart R.start) m R.state R.cfg.maxit).mem R' = ownTrace m R' := by
      intro R' hR'
      rw [ownTrace, ownTrace, f1.states R'.state (hm R' (by simp [hR']))]
    obtain ⟨m', h1, h2⟩ := ih (pyAfter R.cfg R.env R.start (d.copyWithStart R.start) m R.state R.cfg.maxit).mem
      (fun R' hR' => lt_of_lt_of_le (hm R' (by simp [hR'])) f1.next)
      (relaxAfter R.cfg R.env R.start (m.states R.state) t R.cfg.maxit).trace hlists
    refine ⟨m', ?_, fun k => ?_⟩
    · rw [runAll]
      simp only [pyRun, TraceDict.copyWithStart]
      exact h1
    · rw [h2 k, (C54_run_appends R.cfg R.env R.start (m.states R.state) t R.cfg.maxit).2.2.1 k, List.map_cons, List.flatten_cons,
        List.append_assoc]
      congr 2
      congr 1
      exact List.map_congr_left fun R' hR' => by rw [hown R' hR']

end

theorem freshLists_injective (b : Nat) : Function.Injective (freshLists b) := by
  intro x y h
  cases x <;> cases y <;> simp [freshLists] at h ⊢

/-- **C54** (condition: with `copy.deepcopy`, as in the tests, instead of `.copy()`, as in the scripts) a run with a deep copy records exactly
its own entries after the contents of the default dictionary, and changes no list that existed before. -/
theorem C54_deepcopy {V H : Type} (cfg : RelaxConfig) (env : RelaxEnv V H) (start : ℝ) (d : TraceDict) (m : Mem V H) (r : Nat)
    (hr : r < m.nextState) (t : Trace V) (ht : ∀ k, m.lists (d.lists k) = Trace.vals t k) :
    ∃ m', pyRun cfg env ((m.deepcopy d).2.copyWithStart start) (m.deepcopy d).1 r = .ok m' ∧
      (∀ k, m'.lists ((m.deepcopy d).2.lists k) =
        Trace.vals t k ++ Trace.vals (relaxAfter cfg env start (m.states r) (emptyTrace V) cfg.maxit).trace k) ∧
      (∀ a < m.nextList, m'.lists a = m.lists a) := by
  have hinj : Function.Injective ((m.deepcopy d).2.copyWithStart start).lists := freshLists_injective _
  have ht' : ∀ k, (m.deepcopy d).1.lists (((m.deepcopy d).2.copyWithStart start).lists k) = Trace.vals t k := by
    intro k
    rw [← ht k]
    cases k <;> simp [Mem.deepcopy, TraceDict.copyWithStart, freshLists]
  obtain ⟨s1, f1⟩ := pyAfter_sim _ hinj cfg env start (m.deepcopy d).1 r t hr ht' cfg.maxit
  refine ⟨_, rfl, fun k => ?_, fun a ha => ?_⟩
  · have := s1.lists k
    rw [(C54_run_appends cfg env start _ t cfg.maxit).2.2.1 k] at this
    exact this
  · have : (m.deepcopy d).1.lists a = m.lists a := by
      simp only [Mem.deepcopy]
      repeat rw [if_neg (by omega)]
    rw [← this]
    refine f1.lists a fun k => ?_
    simp only [TraceDict.copyWithStart, Mem.deepcopy]
    cases k <;> simp only [freshLists] <;> omega

/-- **C54** with the default `start_time = None` the loop raises `TypeError`. -/
theorem C54_default_start_time_raises {V H : Type} (cfg : RelaxConfig) (env : RelaxEnv V H) (d : TraceDict) (m : Mem V H) (r : Nat)
    (h : d.startTime = none) : pyRun cfg env d m r = .error "TypeError" := by
  simp [pyRun, h]

/-- Concrete cases: a memory with one state and a default dictionary with empty lists. -/
def demoMem : Mem (Nat × Nat) Unit := ⟨fun _ => demoState, 1, fun _ => [], 11⟩

/-- **C52** in the run `demoCfg`/`demoEnv` of 1000 iterations the relaxed field is (999, 0) but the caller's state still has (0, 0). -/
example : ∃ m', pyRun (demoCfg 1 1 (-1)) (demoEnv 1) ⟨freshLists 0, some 0⟩ demoMem 0 = .ok m' ∧ (m'.states 0).Bn = (0, 0) ∧
    (relaxAfter (demoCfg 1 1 (-1)) (demoEnv 1) 0 demoState (emptyTrace _) 1000).state.Bn = (999, 0) := by
  refine ⟨_, rfl, ?_, ?_⟩
  · rw [C52_caller_state_unchanged ⟨freshLists 0, some 0⟩ (freshLists_injective 0) (demoCfg 1 1 (-1)) (demoEnv 1) demoMem _ 0
      (emptyTrace _) (by simp [demoMem]) (by intro k; cases k <;> simp [demoMem, Trace.vals, emptyTrace]) rfl]
    rfl
  · rw [(C51_not_applied_once 1 (le_refl _) 1000).2.1]; simp

/-- **C54** two runs: the iteration list seen by both has two entries for iteration 0. -/
example : ∃ m', runAll ⟨freshLists 0, none⟩ demoMem [⟨demoCfg 1 1 (-1), demoEnv 1, 0, 0⟩, ⟨demoCfg 1 1 (-1), demoEnv 1, 5, 0⟩] = .ok m' ∧
    2 ≤ ((m'.lists 0).filter fun v => match v with | .nat 0 => true | _ => false).length := by
  obtain ⟨m', h1, h2⟩ := C54_runs_share_trace ⟨freshLists 0, none⟩ (freshLists_injective 0)
    [⟨demoCfg 1 1 (-1), demoEnv 1, 0, 0⟩, ⟨demoCfg 1 1 (-1), demoEnv 1, 5, 0⟩] demoMem (by simp [demoMem]) (emptyTrace _)
    (by intro k; cases k <;> simp [demoMem, Trace.vals, emptyTrace])
  refine ⟨m', h1, ?_⟩
  have := h2 .iterations
  simp only [freshLists] at this
  rw [this]
  simp [ownTrace, Trace.vals, emptyTrace, (C50_trace _ _ _ _ _ _).1, List.filter_append]
  omega

/-- Case of `C52_caller_not_relaxed`: the demonstration run. -/
example : ∃ m', pyRun (demoCfg 1 1 (-1)) (demoEnv 1) ⟨freshLists 0, some 0⟩ demoMem 0 = .ok m' ∧
    (m'.states 0).Bn ≠ (relaxAfter (demoCfg 1 1 (-1)) (demoEnv 1) 0 demoState (emptyTrace _) 1000).state.Bn := by
  obtain ⟨m', e⟩ : ∃ m', pyRun (demoCfg 1 1 (-1)) (demoEnv 1) ⟨freshLists 0, some 0⟩ demoMem 0 = .ok m' := ⟨_, rfl⟩
  have hm : (demoCfg 1 1 (-1)).maxit = 1000 := rfl
  have := C52_caller_not_relaxed ⟨freshLists 0, some 0⟩ (freshLists_injective 0) (demoCfg 1 1 (-1)) (demoEnv 1) 0 demoMem m' 0
      (emptyTrace _) (by simp [demoMem]) (by intro k; cases k <;> simp [demoMem, Trace.vals, emptyTrace]) rfl (by
        rw [hm, show demoMem.states 0 = demoState from rfl, (C51_not_applied_once 1 (le_refl _) 1000).2.1, show demoState.Bn = (0, 0) from rfl]
        simp) e
  rw [hm, show demoMem.states 0 = demoState from rfl] at this
  exact ⟨m', e, this⟩

/-- Case of `C54_deepcopy`. -/
example := C54_deepcopy (demoCfg 1 1 (-1)) (demoEnv 1) 5 ⟨freshLists 0, none⟩ demoMem 0 (by simp [demoMem]) (emptyTrace _)
    (by intro k; cases k <;> simp [demoMem, Trace.vals, emptyTrace])

end Mrx.Props
