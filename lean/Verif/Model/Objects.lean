import Verif.Model.Relaxation
import Mathlib.Logic.Function.Basic

/-!
# Python objects: what is shared between the caller and `run_relaxation_loop`

`State` objects are immutable (`equinox.Module` is a frozen dataclass, `eqx.tree_at` returns a new object), so every assignment
`state = ...` inside the loop binds the local name to a freshly allocated object. The lists in a trace dictionary are mutable and
referenced by address; `dict.copy()` copies references.
-/

namespace Mrx

/-- The list-valued keys of a trace dictionary that the loop appends to (`p_fields` is never appended to); `mrx/utils.py:323-338`. -/
inductive TraceKey where
  | iterations | force | energy | helicity | divergence | picardIterations | picardErrors | timesteps | velocity | wallTime | Bfields
  deriving DecidableEq

/-- List elements. -/
inductive Val (V : Type) where
  | nat (n : Nat)
  | int (n : Int)
  | fv (x : FV)
  | real (x : ℝ)
  | field (B : V)

/-- `float(x)` of an element, for the comparison with `force_tol`. -/
def Val.asFV {V : Type} : Val V → FV
  | .fv x => x
  | _ => .nan

/-- Memory: addresses below `nextState` (`nextList`) hold allocated state (list) objects. -/
structure Mem (V H : Type) where
  states : Nat → State V H
  nextState : Nat
  lists : Nat → List (Val V)
  nextList : Nat

/-- A trace dictionary: for each key the address of its list, and `start_time`. -/
structure TraceDict where
  lists : TraceKey → Nat
  startTime : Option ℝ

section
variable {V H : Type}

/-- Allocate a new state object. -/
def Mem.newState (m : Mem V H) (s : State V H) : Mem V H :=
  { m with states := Function.update m.states m.nextState s, nextState := m.nextState + 1 }

/-- `list.append(v)` for the list at address `r`. -/
def Mem.push (m : Mem V H) (r : Nat) (v : Val V) : Mem V H := { m with lists := Function.update m.lists r (m.lists r ++ [v]) }

/-- `append_to_trace_dict`; `mrx/utils.py:340-377`. -/
def TraceDict.append (d : TraceDict) (start : ℝ) (i : Nat) (f E Hel dvg v : FV) (pi : Int) (e : FV) (dt time : ℝ) (B : Option V)
    (m : Mem V H) : Mem V H :=
  let m := m.push (d.lists .iterations) (.nat i)
  let m := m.push (d.lists .force) (.fv f)
  let m := m.push (d.lists .energy) (.fv E)
  let m := m.push (d.lists .helicity) (.fv Hel)
  let m := m.push (d.lists .divergence) (.fv dvg)
  let m := m.push (d.lists .velocity) (.fv v)
  let m := m.push (d.lists .picardIterations) (.int pi)
  let m := m.push (d.lists .picardErrors) (.fv e)
  let m := m.push (d.lists .timesteps) (.real dt)
  let m := m.push (d.lists .wallTime) (.real (time - start))
  match B with
  | none => m
  | some b => m.push (d.lists .Bfields) (.field b)

/-- The running loop: memory, the address the local name `state` is bound to, and whether `break` was executed. -/
structure PyLoop (V H : Type) where
  mem : Mem V H
  cur : Nat
  stopped : Bool

/-- The object bound to `state`. -/
def PyLoop.state (l : PyLoop V H) : State V H := l.mem.states l.cur

/-- `state = f(state)`, where `f` returns a new object. -/
def PyLoop.assign (l : PyLoop V H) (f : State V H → State V H) : PyLoop V H :=
  { l with mem := l.mem.newState (f l.state), cur := l.mem.nextState }

variable (cfg : RelaxConfig) (env : RelaxEnv V H) (start : ℝ) (d : TraceDict)

open Classical in
/-- The assignments of an accepted step; `mrx/utils.py:510-529`. -/
noncomputable def pyAccept (i : Nat) (l : PyLoop V H) : PyLoop V H :=
  let l := l.assign fun s => s.updateBn s.Bguess
  let l := if (i : Int) = cfg.applyPertAfter ∧ cfg.pertStrength > 0 then l.assign fun s => s.updateBn (env.perturb s.Bn) else l
  let l := if cfg.precond = true ∧ i % cfg.precondEvery = 0 then l.assign fun s => s.updateHessian (env.hessian s.Bn) else l
  let dtNew := if l.state.picardIterations < cfg.solverCritit then l.state.dt * cfg.dtFactor else l.state.dt / cfg.dtFactor ^ 2
  l.assign fun s => s.updateDt dtNew

/-- `mrx/utils.py:531-542`. -/
noncomputable def pyRecord (i : Nat) (l : PyLoop V H) : PyLoop V H :=
  if i % cfg.saveEvery = 0 ∨ i = cfg.maxit then
    let m := d.append start i l.state.forceNorm (env.energy l.state.Bn) (env.helicity l.state.Bn) (env.divergence l.state.Bn)
      l.state.velocityNorm l.state.picardIterations l.state.picardResiduum l.state.dt (env.clock i)
      (if cfg.saveB then some l.state.Bn else none) l.mem
    { l with mem := m }
  else l

open Classical in
/-- The loop body; `mrx/utils.py:502-553`. -/
noncomputable def pyIteration (i : Nat) (l : PyLoop V H) : PyLoop V H :=
  if l.stopped = true then l
  else
    let l := l.assign (env.step cfg)
    if rejected cfg l.state then (l.assign fun s => s.updateDt (s.dt / 2)).assign fun s => s.updateBguess s.Bn
    else
      let l := pyRecord cfg env start d i (pyAccept cfg env i l)
      { l with stopped := decide (FV.lt (((l.mem.lists (d.lists .force)).map Val.asFV).getLastD .nan) (.fin cfg.forceTol)) }

/-- Before the loop, with `state` bound to the object at address `r` passed by the caller; `mrx/utils.py:477-489`. -/
noncomputable def pyInit (m : Mem V H) (r : Nat) : PyLoop V H :=
  let s := m.states r
  let dry := env.step cfg s
  let m := m.newState dry
  ⟨d.append start 0 dry.forceNorm (env.energy s.Bn) (env.helicity s.Bn) (env.divergence s.Bn) dry.velocityNorm 0 (.fin 0) dry.dt
    (env.clock 0) (if cfg.saveB then some s.Bn else none) m, r, false⟩

/-- After iterations `1..k`. -/
noncomputable def pyAfter (m : Mem V H) (r : Nat) : Nat → PyLoop V H
  | 0 => pyInit cfg env start d m r
  | k + 1 => pyIteration cfg env start d (k + 1) (pyAfter m r k)

/-- `run_relaxation_loop(CONFIG, trace_dict, state, diagnostics)` with `state` at address `r`: the memory afterwards (it returns `None`).
With `start_time = None` (the default) the first `append_to_trace_dict` raises `TypeError`; the memory at that moment is not modelled.
`mrx/utils.py:448-553`. -/
noncomputable def pyRun (m : Mem V H) (r : Nat) : Except String (Mem V H) :=
  match d.startTime with
  | none => .error "TypeError"
  | some start => .ok (pyAfter cfg env start d m r cfg.maxit).mem

/-- `trace_dict = default_trace_dict.copy(); trace_dict["start_time"] = time`; `scripts/config_scripts/solovev.py:54-55`. -/
def TraceDict.copyWithStart (time : ℝ) : TraceDict := { d with startTime := some time }

/-- The addresses of the eleven lists of a freshly created dictionary. -/
def freshLists (base : Nat) : TraceKey → Nat
  | .iterations => base
  | .force => base + 1
  | .energy => base + 2
  | .helicity => base + 3
  | .divergence => base + 4
  | .picardIterations => base + 5
  | .picardErrors => base + 6
  | .timesteps => base + 7
  | .velocity => base + 8
  | .wallTime => base + 9
  | .Bfields => base + 10

/-- `copy.deepcopy(default_trace_dict)`: new list objects with the same contents (what the tests use; `test/test_utils.py:530`). -/
def Mem.deepcopy (m : Mem V H) : Mem V H × TraceDict :=
  let lists := fun r => if r = m.nextList then m.lists (d.lists .iterations) else if r = m.nextList + 1 then m.lists (d.lists .force)
    else if r = m.nextList + 2 then m.lists (d.lists .energy) else if r = m.nextList + 3 then m.lists (d.lists .helicity)
    else if r = m.nextList + 4 then m.lists (d.lists .divergence) else if r = m.nextList + 5 then m.lists (d.lists .picardIterations)
    else if r = m.nextList + 6 then m.lists (d.lists .picardErrors) else if r = m.nextList + 7 then m.lists (d.lists .timesteps)
    else if r = m.nextList + 8 then m.lists (d.lists .velocity) else if r = m.nextList + 9 then m.lists (d.lists .wallTime)
    else if r = m.nextList + 10 then m.lists (d.lists .Bfields) else m.lists r
  ({ m with lists := lists, nextList := m.nextList + 11 }, ⟨freshLists m.nextList, d.startTime⟩)

end
end Mrx
