import Verif.Model.RunSetup
import Verif.Model.Objects
import Verif.Model.Scripts
import Verif.Model.Diagnostics
import Verif.Model.Manufactured
import Verif.Model.Perturbation

/-!
# From the sequence to the HDF5 file: the second half of `run` in the relaxation scripts

`scripts/config_scripts/solovev.py:46-121`, `iter_islands.py:34-143`, `stell.py:34-140`: run name, initial field, relaxation, report, post-processing and the file that is written.
Arithmetic is exact. A script is one process with one run, so the lists of the trace dictionary are empty before. Calls of numerical libraries, random numbers and the clock are
parameters. The plots after saving are not part of this file (`Model/SavedPlots.lean`, `Model/Figures.lean`).
-/

set_option linter.unusedVariables false

namespace Mrx
open Real Matrix IO

/-- `jnp.linalg.pinv`, `jnp.linalg.lstsq(A, b)[0]` and `jnp.linalg.eigh(A)`. -/
structure NumLib where
  pinv : ∀ {n : Nat}, Matrix (Fin n) (Fin n) ℝ → Matrix (Fin n) (Fin n) ℝ
  lstsq : ∀ {n : Nat}, Matrix (Fin n) (Fin n) ℝ → (Fin n → ℝ) → (Fin n → ℝ)
  eigh : ∀ {n : Nat}, Matrix (Fin n) (Fin n) ℝ → (Fin n → ℝ) × Matrix (Fin n) (Fin n) ℝ

/-- What a run reads from outside: random choices for the run name, `time.time()` at the start, after the setup, when iteration `i` is recorded, and at the end. -/
structure World where
  rnd : Nat → Fin idChars.length
  startTime : ℝ
  setupDone : ℝ
  clock : Nat → ℝ
  endTime : ℝ

/-- The HDF5 file: its name, the traces, the final fields, the norm of the harmonic component, the timings (total, setup, solve), the saved fields with their pressures if there
are any, and the attributes of the group `config` (strings are stored as bytes; `dB_xyz` is a function and not stored). Numbers that are NaN because of a vanishing field (`force_free`)
are `none`. `mrx/utils.py:396-446`. -/
structure RunFile where
  name : PyStr
  traces : PyDict (List FV)
  Bfinal : List ℝ
  pfinal : Option (List ℝ)
  harmonicNorm : ℝ
  times : ℝ × ℝ × ℝ
  fields : Option (List (List ℝ) × List (Option (List ℝ)))
  config : PyDict (ArgVal ℝ)

/-- `CONFIG[k]` used as a condition. -/
def configTruth (zero : ℝ → Bool) (c : PyDict (ArgVal ℝ)) (k : String) : Except String Bool :=
  match c.get? k.toList with
  | none => .error "KeyError"
  | some v => .ok (v.truthy zero)

/-- The run name; `scripts/config_scripts/solovev.py:47-50`, `iter_islands.py:35-39`, `stell.py:35-38`. `parse_args` makes integers, booleans and floats of some names, which cannot be
concatenated with a string. -/
def runName (W : World) (c : PyDict (ArgVal ℝ)) : Except String PyStr :=
  match c.get? "run_name".toList with
  | none => .error "KeyError"
  | some (.str s) => .ok (if s = [] then uniqueId W.rnd 8 else s)
  | some _ => .error "TypeError"

/-- `outdir`; `scripts/config_scripts/solovev.py:50`, `iter_islands.py:39`, `stell.py:38`. -/
def outDir (script : String) (name : PyStr) : PyStr := "script_outputs/".toList ++ script.toList ++ "/".toList ++ name ++ "/".toList

/-- `save_every`, `precond_compute_every`: divisors of the iteration number; 0 raises. Simplification: also if no iteration is accepted. -/
def divisorOf (n : Int) : Except String Nat := if n = 0 then .error "ZeroDivisionError" else .ok n.natAbs

/-- The numbers among the entries of `CONFIG` the loop reads: `solver_tol`, `dt_factor`, `force_tol`, `pert_strength`. -/
noncomputable def loopNums (c : PyDict (ArgVal ℝ)) : Except String (ℝ × ℝ × ℝ × ℝ) :=
  match configNum c "solver_tol", configNum c "dt_factor", configNum c "force_tol", configNum c "pert_strength" with
  | .ok a, .ok b, .ok f, .ok p => .ok (a, b, f, p)
  | _, _, _, _ => .error "TypeError"

/-- The integers among them: `maxit`, `solver_maxit`, `solver_critit`, `apply_pert_after`. Simplification: floats are refused for all of them, Python refuses them for `maxit`. -/
def loopInts (c : PyDict (ArgVal ℝ)) : Except String (Int × Int × Int × Int) :=
  match configInt c "maxit", configInt c "solver_maxit", configInt c "solver_critit", configInt c "apply_pert_after" with
  | .ok a, .ok b, .ok f, .ok p => .ok (a, b, f, p)
  | _, _, _, _ => .error "TypeError"

/-- The divisors `precond_compute_every`, `save_every`. -/
def loopDivisors (c : PyDict (ArgVal ℝ)) : Except String (Nat × Nat) :=
  match configInt c "precond_compute_every", configInt c "save_every" with
  | .ok a, .ok b =>
    match divisorOf a, divisorOf b with
    | .ok a, .ok b => .ok (a, b)
    | _, _ => .error "ZeroDivisionError"
  | _, _ => .error "TypeError"

/-- The conditions `precond`, `force_free`, `save_B`. -/
def loopFlags (zero : ℝ → Bool) (c : PyDict (ArgVal ℝ)) : Except String (Bool × Bool × Bool) :=
  match configTruth zero c "precond", configTruth zero c "force_free", configTruth zero c "save_B" with
  | .ok a, .ok b, .ok f => .ok (a, b, f)
  | _, _, _ => .error "KeyError"

/-- The configuration of the loop, and `force_free`; `mrx/utils.py:463-531`. -/
noncomputable def loopConfig (zero : ℝ → Bool) (c : PyDict (ArgVal ℝ)) : Except String (RelaxConfig × Bool) :=
  match loopNums c, loopInts c, loopDivisors c, loopFlags zero c with
  | .ok (tol, factor, ftol, strength), .ok (maxit, smaxit, critit, after), .ok (every, save), .ok (precond, ff, saveB) =>
    .ok (⟨maxit.toNat, tol, smaxit, critit, factor, ftol, precond, every, strength, after, save, saveB⟩, ff)
  | .error e, _, _, _ => .error e
  | _, .error e, _, _ => .error e
  | _, _, .error e, _ => .error e
  | _, _, _, .error e => .error e

/-- `dt`, `eta` and `gamma`; `scripts/config_scripts/solovev.py:91`, `mrx/utils.py:464`. -/
noncomputable def stateNums (c : PyDict (ArgVal ℝ)) : Except String (ℝ × ℝ × Nat) :=
  match configNum c "dt", configNum c "eta", configInt c "gamma" with
  | .ok dt, .ok eta, .ok g => .ok (dt, eta, g.toNat)
  | _, _, _ => .error "TypeError"

/-- The numbers of a list of the trace dictionary, as they are stored. -/
def Val.number {V : Type} : Val V → FV
  | .nat n => .fin n
  | .int n => .fin n
  | .fv x => x
  | .real x => .fin x
  | .field _ => .nan

/-- The entries of the list of iterations. -/
def Val.nat? {V : Type} : Val V → Option Nat
  | .nat n => some n
  | _ => none

/-- The entries of the list of fields. -/
def Val.field? {V : Type} : Val V → Option V
  | .field B => some B
  | _ => none

/-- The names of the datasets with the traces and the lists they come from; `mrx/utils.py:397-417`. -/
def traceKeys : List (String × TraceKey) :=
  [("iterations", .iterations), ("force_trace", .force), ("energy_trace", .energy), ("helicity_trace", .helicity), ("divergence_trace", .divergence),
   ("velocity_trace", .velocity), ("picard_iterations", .picardIterations), ("picard_errors", .picardErrors), ("timesteps", .timesteps), ("wall_time_trace", .wallTime)]

section
variable (lib : NumLib) (W : World)

/-- The pressure that is stored; `mrx/relaxation.py:174-208`. -/
noncomputable def storedPressure (D : DeRham) (forceFree : Bool) (B : Fin D.m2 → ℝ) : Option (List ℝ) :=
  if forceFree then (D.pressureForceFree B).map List.ofFn else some (List.ofFn (D.pressure B))

/-- The time stepper of `run_relaxation_loop`; `mrx/utils.py:462-468`. -/
noncomputable def stepperOf (D : DeRham) (gamma : Nat) (cfg : RelaxConfig) (forceFree : Bool) : Stepper :=
  ⟨D, lib.pinv D.dd3, lib.lstsq, gamma, cfg.precond, forceFree⟩

/-- Relaxation, report, post-processing and saving, with the initial state in a new object (address 0) and a new trace dictionary;
`scripts/config_scripts/solovev.py:93-117`, `iter_islands.py:113-139`, `stell.py:110-136`. The field that is stored as the final one is read from the object `state` of the script. -/
noncomputable def finishRun (T : Stepper) (cfg : RelaxConfig) (dB : V3 → V3) (s : T.St) (filename : PyStr) (c : PyDict (ArgVal ℝ)) : Except String RunFile :=
  let d : TraceDict := ⟨freshLists 0, some W.startTime⟩
  let m : Mem T.Field (Matrix (Fin T.D.m2) (Fin T.D.m2) ℝ) := ⟨fun _ => s, 1, fun _ => [], 11⟩
  match pyRun cfg (T.env cfg.pertStrength dB W.clock) d m 0 with
  | .error e => .error e
  | .ok m =>
    match averageStepTime W.endTime W.setupDone ((m.lists (d.lists .iterations)).filterMap Val.nat?) with
    | .error e => .error e
    | .ok _ =>
      .ok {
        name := traceFile filename
        traces := traceKeys.map fun e => (e.1.toList, (m.lists (d.lists e.2)).map Val.number)
        Bfinal := List.ofFn (m.states 0).Bn
        pfinal := storedPressure T.D T.forceFree (m.states 0).Bn
        harmonicNorm := T.D.norm2 (T.D.harmonicComponent (m.states 0).Bn)
        times := (W.endTime - W.startTime, W.setupDone - W.startTime, W.endTime - W.setupDone)
        fields := if cfg.saveB then
            some (((m.lists (d.lists .Bfields)).filterMap Val.field?).map List.ofFn,
              ((m.lists (d.lists .Bfields)).filterMap Val.field?).map (storedPressure T.D T.forceFree))
          else none
        config := c }

open Classical in
/-- The perturbation is due at an iteration with an accepted step; `mrx/utils.py:501-515`. (What the perturbation is does not matter for the iterations before.) -/
def perturbationDue (T : Stepper) (cfg : RelaxConfig) (s : T.St) : Prop :=
  ∃ i, 1 ≤ i ∧ i ≤ cfg.maxit ∧ (i : Int) = cfg.applyPertAfter ∧ cfg.pertStrength > 0 ∧
    (relaxAfter cfg (T.env cfg.pertStrength (fun _ => 0) W.clock) W.startTime s ⟨[], [], [], [], [], [], [], [], [], [], []⟩ (i - 1)).stopped = false ∧
    ¬ rejected cfg ((T.env cfg.pertStrength (fun _ => 0) W.clock).step cfg
      (relaxAfter cfg (T.env cfg.pertStrength (fun _ => 0) W.clock) W.startTime s ⟨[], [], [], [], [], [], [], [], [], [], []⟩ (i - 1)).state)

open Classical in
/-- The whole of `run` after the sequence is built: `script` is the directory of the outputs, `suffix` what the script appends to the name itself (`.h5` in `stell.py:135`, nothing in
the other two), `start` the initial field, which may not exist, and `dB` the function `CONFIG["dB_xyz"]`, which `solovev.py` does not set: then a perturbation that is due raises
`KeyError` in the loop. -/
noncomputable def finishWith (zero : ℝ → Bool) (script suffix : String) (c : PyDict (ArgVal ℝ)) (D : DeRham)
    (start : RelaxConfig → Except String (Fin D.m2 → ℝ)) (dB : Option (V3 → V3)) : Except String RunFile :=
  match runName W c, loopConfig zero c, stateNums c with
  | .ok name, .ok (cfg, ff), .ok (dt, eta, gamma) =>
    match start cfg with
    | .error e => .error e
    | .ok B =>
      if dB = none ∧ perturbationDue W (stepperOf lib D gamma cfg ff) cfg ((stepperOf lib D gamma cfg ff).initState B dt eta) then .error "KeyError: 'dB_xyz'"
      else finishRun W (stepperOf lib D gamma cfg ff) cfg (dB.getD fun _ => 0) ((stepperOf lib D gamma cfg ff).initState B dt eta)
        (outDir script name ++ name ++ suffix.toList) c
  | .error e, _, _ => .error e
  | _, .error e, _ => .error e
  | _, _, .error e => .error e

/-- The initial field of `solovev.py`: `eigh(M2 @ dd2)[1][:, 0]`, normalised; `scripts/config_scripts/solovev.py:85-87`. `eigh` symmetrises its argument. -/
noncomputable def eigenStart (D : DeRham) : Except String (Fin D.m2 → ℝ) :=
  if h : 0 < D.m2 then .ok (D.harmonicStart (lib.eigh (symmetrize (D.M2 * D.dd2))).2 ⟨0, h⟩) else .error "IndexError"

/-- `dB_xyz` with the entries of the configuration; `scripts/config_scripts/iter_islands.py:86-94`, `stell.py:83-91`. -/
noncomputable def pertOf (c : PyDict (ArgVal ℝ)) (D : DeRham) : Except String (V3 → V3) :=
  match configNum c "pert_radial_loc", configNum c "pert_radial_width", configNum c "pert_pol_mode", configNum c "pert_tor_mode" with
  | .ok loc, .ok width, .ok pol, .ok tor => .ok (islandPert D.F loc width pol tor)
  | _, _, _, _ => .error "TypeError"

/-- `B_0` of `iter_islands.py`; `scripts/config_scripts/iter_islands.py:42, 60, 75-84`. -/
noncomputable def iterField (c : PyDict (ArgVal ℝ)) (D : DeRham) : Except String (V3 → V3) :=
  match configNum c "q_star", configNum c "kappa" with
  | .ok q, .ok k => .ok fun p => Manufactured.solovevB k (Manufactured.iterTau q k) (D.F p)
  | _, _ => .error "TypeError"

/-- `B_xyz` of `stell.py`; `scripts/config_scripts/stell.py:57, 70-79`. -/
noncomputable def stellField (c : PyDict (ArgVal ℝ)) (D : DeRham) : Except String (V3 → V3) :=
  match configNum c "q_star" with
  | .ok q => .ok fun p => Manufactured.solovevB 1 q (D.F p)
  | _ => .error "TypeError"

/-- Initial field, relaxation and file of `iter_islands.py` and `stell.py`. -/
noncomputable def finishProjected (zero : ℝ → Bool) (script suffix : String) (c : PyDict (ArgVal ℝ)) (D : DeRham) (B : Except String (V3 → V3)) : Except String RunFile :=
  match B, pertOf c D with
  | .ok B, .ok dB => finishWith lib W zero script suffix c D (fun cfg => .ok (D.projectedStart (lib.pinv D.dd3) cfg.applyPertAfter cfg.pertStrength B dB)) (some dB)
  | _, _ => .error "TypeError"

variable (P : PyChars ℝ) (zero : ℝ → Bool)

/-- The configuration of `solovev.py`; `scripts/config_scripts/solovev.py:31-40`. -/
noncomputable def solovevConfig (inActions : Bool) (params : PyDict (ArgVal ℝ)) : Except String (PyDict (ArgVal ℝ)) :=
  match updateConfig P zero (devicePresets realLits) params (defaultConfig realLits) with
  | .error e => .error e
  | .ok c => .ok (if inActions then c.update actionsSizes else c)

/-- `python solovev.py key=value ...` up to the file it writes; `scripts/config_scripts/solovev.py:18-117`. -/
noncomputable def solovevMain (inActions : Bool) (params : PyDict (ArgVal ℝ)) : Except String RunFile :=
  match solovevConfig P zero inActions params with
  | .error e => .error e
  | .ok c =>
    match solovevBuild c with
    | .error e => .error e
    | .ok D => finishWith lib W zero "solovev" "" c D (fun _ => eigenStart lib D) none

/-- `python iter_islands.py key=value ...` up to the file it writes; `scripts/config_scripts/iter_islands.py:18-139`. -/
noncomputable def iterMain (params : PyDict (ArgVal ℝ)) : Except String RunFile :=
  match updateConfig P zero (devicePresets realLits) params iterConfig with
  | .error e => .error e
  | .ok c =>
    match iterBuild c with
    | .error e => .error e
    | .ok D => finishProjected lib W zero "iter" "" c D (iterField c D)

/-- `python stell.py key=value ...` up to the file it writes; `scripts/config_scripts/stell.py:17-136`. -/
noncomputable def stellMain (params : PyDict (ArgVal ℝ)) : Except String RunFile :=
  match updateConfig P zero (devicePresets realLits) params stellConfig with
  | .error e => .error e
  | .ok c =>
    match stellBuild c with
    | .error e => .error e
    | .ok D => finishProjected lib W zero "stell" ".h5" c D (stellField c D)

end
end Mrx
