import Verif.Model.Projectors
import Verif.Model.Solvers

/-!
# Model of `mrx/relaxation.py` and of `run_relaxation_loop` (`mrx/utils.py:448-553`)

The control flow (`TimeStepper.picard_solver`, `run_relaxation_loop`) is modelled for an arbitrary type `V` of field arrays (which may
contain NaN), `H` of Hessian arrays and an arbitrary result of the numerical computations of one Picard update; scalar results are `FV`.
The numerical computations themselves are modelled for exact real vectors (`Stepper`). `dt` and `eta` are exact reals (no underflow of
`dt`).
-/

namespace Mrx
open Matrix

/-- `State`; `mrx/relaxation.py:207-239`. -/
structure State (V H : Type) where
  Bn : V
  Bguess : V
  dt : ℝ
  eta : ℝ
  hessian : H
  picardIterations : Int
  picardResiduum : FV
  forceNorm : FV
  velocityNorm : FV

/-- What one evaluation of the midpoint equations computes: `B_nplus1`, `residuum`, `force_norm`, `velocity_norm`. -/
structure Update (V : Type) where
  B : V
  residuum : FV
  force : FV
  velocity : FV

section
variable {V H : Type}

/-- The state update at the end of `midpoint_residuum`; `mrx/relaxation.py:352-364`. -/
def midpointResiduum (upd : State V H → Update V) (s : State V H) : State V H :=
  { s with Bguess := (upd s).B, picardResiduum := (upd s).residuum, picardIterations := s.picardIterations + 1,
           forceNorm := (upd s).force, velocityNorm := (upd s).velocity }

/-- `update_dt`; `mrx/relaxation.py:366-386`. -/
def State.updateDt (s : State V H) (dt : ℝ) : State V H := { s with dt := dt }
/-- `update_hessian`; `mrx/relaxation.py:388-408`. -/
def State.updateHessian (s : State V H) (h : H) : State V H := { s with hessian := h }
/-- `update_B_n`; `mrx/relaxation.py:410-430`. -/
def State.updateBn (s : State V H) (B : V) : State V H := { s with Bn := B }
/-- `update_B_guess`; `mrx/relaxation.py:432-452`. -/
def State.updateBguess (s : State V H) (B : V) : State V H := { s with Bguess := B }

/-- `cond_fun` of `TimeStepper.picard_solver`; `mrx/relaxation.py:468-485`. -/
def stepperCond (tol : ℝ) (maxit : Int) (s : State V H) : Prop :=
  s.picardIterations < maxit ∧ (FV.gt s.picardResiduum (.fin tol) ∨ s.picardResiduum.isnan)

/-- `TimeStepper.picard_solver`; `mrx/relaxation.py:454-512`. -/
noncomputable def stepperSolve (upd : State V H → Update V) (tol : ℝ) (maxit : Int) (s : State V H) (fuel : Nat) : Option (State V H) :=
  whileLoop (stepperCond tol maxit) (midpointResiduum upd) fuel { s with picardResiduum := .fin 1, picardIterations := 0 }

/-- The same with as much fuel as the loop needs (`C48_picard_terminates`). -/
noncomputable def step (upd : State V H → Update V) (tol : ℝ) (maxit : Int) (s : State V H) : State V H :=
  (stepperSolve upd tol maxit s (maxit.toNat + 1)).getD s

/-! ## `run_relaxation_loop` -/

/-- The entries of `CONFIG` that the loop reads (`save_every`, `print_every`, `precond_compute_every` at least 1; 0 would raise
`ZeroDivisionError`); `mrx/utils.py:269-319`. -/
structure RelaxConfig where
  maxit : Nat
  solverTol : ℝ
  solverMaxit : Int
  solverCritit : Int
  dtFactor : ℝ
  forceTol : ℝ
  precond : Bool
  precondEvery : Nat
  pertStrength : ℝ
  applyPertAfter : Int
  saveEvery : Nat
  saveB : Bool

/-- The computations the loop calls: one midpoint update, energy, helicity, divergence norm, Hessian, the perturbation
`B ↦ B + pert_strength * dB_hat` (`mrx/utils.py:513-519`), and the clock: `time.time()` when the values of iteration `i` are recorded. -/
structure RelaxEnv (V H : Type) where
  upd : State V H → Update V
  energy : V → FV
  helicity : V → FV
  divergence : V → FV
  hessian : V → H
  perturb : V → V
  clock : Nat → ℝ

/-- The lists of the trace dictionary; `mrx/utils.py:323-338`. -/
structure Trace (V : Type) where
  iterations : List Nat
  force : List FV
  energy : List FV
  helicity : List FV
  divergence : List FV
  picardIterations : List Int
  picardErrors : List FV
  timesteps : List ℝ
  velocity : List FV
  wallTime : List ℝ
  Bfields : List V

/-- `append_to_trace_dict`; `mrx/utils.py:340-377`. `start` is `trace_dict["start_time"]` (set by the caller; with the default `None` the
subtraction raises `TypeError`). -/
def Trace.append (t : Trace V) (start : ℝ) (i : Nat) (f E Hel dvg v : FV) (pi : Int) (e : FV) (dt time : ℝ) (B : Option V) : Trace V where
  iterations := t.iterations ++ [i]
  force := t.force ++ [f]
  energy := t.energy ++ [E]
  helicity := t.helicity ++ [Hel]
  divergence := t.divergence ++ [dvg]
  velocity := t.velocity ++ [v]
  picardIterations := t.picardIterations ++ [pi]
  picardErrors := t.picardErrors ++ [e]
  timesteps := t.timesteps ++ [dt]
  wallTime := t.wallTime ++ [time - start]
  Bfields := match B with
    | none => t.Bfields
    | some b => t.Bfields ++ [b]

/-- Local variables of the loop. -/
structure LoopState (V H : Type) where
  state : State V H
  trace : Trace V
  /-- `break` was executed. -/
  stopped : Bool

/-- `jnp.isfinite`. -/
def FV.isfinite : FV → Prop
  | .fin _ => True
  | _ => False

variable (cfg : RelaxConfig) (env : RelaxEnv V H) (start : ℝ)

/-- `step(state)` inside the loop. -/
noncomputable def RelaxEnv.step (s : State V H) : State V H := Mrx.step env.upd cfg.solverTol cfg.solverMaxit s

/-- The rejection test; `mrx/utils.py:504-505`. -/
def rejected (s : State V H) : Prop := FV.gt s.picardResiduum (.fin cfg.solverTol) ∨ ¬ s.picardResiduum.isfinite

/-- The state changes of a rejected step; `mrx/utils.py:506-509`. -/
noncomputable def rejectState (s : State V H) : State V H :=
  let s1 := s.updateDt (s.dt / 2)
  s1.updateBguess s1.Bn

open Classical in
/-- The state changes of an accepted step; `mrx/utils.py:510-529`. -/
noncomputable def acceptState (i : Nat) (s : State V H) : State V H :=
  let s1 := s.updateBn s.Bguess
  let s2 := if (i : Int) = cfg.applyPertAfter ∧ cfg.pertStrength > 0 then s1.updateBn (env.perturb s1.Bn) else s1
  let s3 := if cfg.precond = true ∧ i % cfg.precondEvery = 0 then s2.updateHessian (env.hessian s2.Bn) else s2
  let dtNew := if s3.picardIterations < cfg.solverCritit then s3.dt * cfg.dtFactor else s3.dt / cfg.dtFactor ^ 2
  s3.updateDt dtNew

/-- The recorded values; `mrx/utils.py:531-542`. -/
noncomputable def record (i : Nat) (s : State V H) (t : Trace V) : Trace V :=
  if i % cfg.saveEvery = 0 ∨ i = cfg.maxit then
    t.append start i s.forceNorm (env.energy s.Bn) (env.helicity s.Bn) (env.divergence s.Bn) s.velocityNorm s.picardIterations
      s.picardResiduum s.dt (env.clock i) (if cfg.saveB then some s.Bn else none)
  else t

open Classical in
/-- The loop body for iteration `i`; `mrx/utils.py:502-553` (printing omitted). -/
noncomputable def relaxIteration (i : Nat) (l : LoopState V H) : LoopState V H :=
  if l.stopped = true then l
  else
    let s := env.step cfg l.state
    if rejected cfg s then { l with state := rejectState s }
    else
      let s' := acceptState cfg env i s
      let t := record cfg env start i s' l.trace
      ⟨s', t, decide (FV.lt (t.force.getLastD .nan) (.fin cfg.forceTol))⟩

/-- The state before the loop: one dry run, whose norms are recorded as iteration 0; `mrx/utils.py:477-489`. -/
noncomputable def relaxInit (s : State V H) (t : Trace V) : LoopState V H :=
  let dry := env.step cfg s
  ⟨s, t.append start 0 dry.forceNorm (env.energy s.Bn) (env.helicity s.Bn) (env.divergence s.Bn) dry.velocityNorm 0 (.fin 0) dry.dt
    (env.clock 0) (if cfg.saveB then some s.Bn else none), false⟩

/-- The local variables after iterations `1..k` (`Model/Objects.lean` refines this to Python objects shared with the caller). -/
noncomputable def relaxAfter (s : State V H) (t : Trace V) : Nat → LoopState V H
  | 0 => relaxInit cfg env start s t
  | k + 1 => relaxIteration cfg env start (k + 1) (relaxAfter s t k)

end

/-! ## The numerical update for real vectors -/

namespace DeRham
variable (D : DeRham)

/-- The value of a cross-product projection (0 when the degrees are unsupported; not used for those). -/
noncomputable def crossVec (n m k : Deg) (w : Fin (D.mdim m) → ℝ) (u : Fin (D.mdim k) → ℝ) : Fin (D.mdim n) → ℝ :=
  match D.crossProductOf n m k w u with
  | .ok r => r
  | .error _ => 0

/-- `Seq.P1x1_to_2(v, w)`; `mrx/derham_sequence.py:536`. -/
noncomputable def P1x1to2 (v w : Fin D.m1 → ℝ) : Fin D.m2 → ℝ := D.crossVec .two .one .one v w
/-- `Seq.P2x1_to_1(u, w)`; `mrx/derham_sequence.py:534`. -/
noncomputable def P2x1to1 (u : Fin D.m2 → ℝ) (w : Fin D.m1 → ℝ) : Fin D.m1 → ℝ := D.crossVec .one .two .one u w

/-- `norm_2(B)`; `mrx/relaxation.py:295-309`, `mrx/utils.py:17-27`. -/
noncomputable def norm2 (B : Fin D.m2 → ℝ) : ℝ := Real.sqrt (B ⬝ᵥ D.M2 *ᵥ B)

/-- `MRXDiagnostics.energy`; `mrx/relaxation.py:105-119`. -/
noncomputable def energy (B : Fin D.m2 → ℝ) : ℝ := 0.5 * (B ⬝ᵥ D.M2 *ᵥ B)

/-- `A = solve(dd1, weak_curl @ B)`; `mrx/relaxation.py:135, 153`. -/
noncomputable def vectorPotential (B : Fin D.m2 → ℝ) : Fin D.m1 → ℝ := D.dd1⁻¹ *ᵥ (D.weakCurl *ᵥ B)

/-- `MRXDiagnostics.harmonic_component`; `mrx/relaxation.py:139-155`. -/
noncomputable def harmonicComponent (B : Fin D.m2 → ℝ) : Fin D.m2 → ℝ := B - D.strongCurl *ᵥ D.vectorPotential B

/-- `MRXDiagnostics.helicity`; `mrx/relaxation.py:121-137`. -/
noncomputable def helicity (B : Fin D.m2 → ℝ) : ℝ :=
  D.vectorPotential B ⬝ᵥ D.M1 *ᵥ (D.P12 *ᵥ (B + D.harmonicComponent B))

/-- `MRXDiagnostics.divergence_norm`; `mrx/relaxation.py:157-172`. -/
noncomputable def divergenceNorm (B : Fin D.m2 → ℝ) : ℝ :=
  Real.sqrt ((D.strongDiv *ᵥ B) ⬝ᵥ D.M3 *ᵥ (D.strongDiv *ᵥ B))

end DeRham

/-- A `TimeStepper` with its sequence; `mrx/relaxation.py:242-271`. `pinv` is `jnp.linalg.pinv(dd3)` (inside `P_Leray`), `lstsq` any
function standing for `jnp.linalg.lstsq(A, b)[0]`. -/
structure Stepper where
  D : DeRham
  pinv : Matrix (Fin D.m3) (Fin D.m3) ℝ
  lstsq : Matrix (Fin D.m2) (Fin D.m2) ℝ → (Fin D.m2 → ℝ) → (Fin D.m2 → ℝ)
  gamma : Nat
  newton : Bool
  forceFree : Bool

namespace Stepper
variable (T : Stepper)

/-- Fields. -/
abbrev Field := Fin T.D.m2 → ℝ
/-- States. -/
abbrev St := State T.Field (Matrix (Fin T.D.m2) (Fin T.D.m2) ℝ)

/-- `B_mid`; `mrx/relaxation.py:328`. -/
noncomputable def Bmid (s : T.St) : T.Field := (1 / 2 : ℝ) • (s.Bguess + s.Bn)
/-- `J_hat`; `mrx/relaxation.py:330`. -/
noncomputable def J (s : T.St) : Fin T.D.m1 → ℝ := T.D.weakCurl *ᵥ T.Bmid s
/-- `H_hat`; `mrx/relaxation.py:331`. -/
noncomputable def Hh (s : T.St) : Fin T.D.m1 → ℝ := T.D.P12 *ᵥ T.Bmid s
/-- `JxH_hat`; `mrx/relaxation.py:332-333`. -/
noncomputable def JxH (s : T.St) : T.Field := T.D.M2⁻¹ *ᵥ T.D.P1x1to2 (T.J s) (T.Hh s)
/-- `f_hat`; `mrx/relaxation.py:334-337`. -/
noncomputable def f (s : T.St) : T.Field := if T.forceFree then T.JxH s else T.D.leray T.pinv *ᵥ T.JxH s
/-- `u_hat` after the regularisation loop; `mrx/relaxation.py:338-340`. -/
noncomputable def u0 (s : T.St) : T.Field := (fun v => (1 + T.D.dd2)⁻¹ *ᵥ v)^[T.gamma] (T.f s)
/-- `u_hat`; `mrx/relaxation.py:341-344`. -/
noncomputable def u (s : T.St) : T.Field :=
  if T.newton then T.D.leray T.pinv *ᵥ T.lstsq s.hessian ((T.D.leray T.pinv)ᵀ *ᵥ (T.D.M2 *ᵥ T.u0 s)) else T.u0 s
/-- `E_hat`; `mrx/relaxation.py:345-346`. -/
noncomputable def E (s : T.St) : Fin T.D.m1 → ℝ := T.D.M1⁻¹ *ᵥ T.D.P2x1to1 (T.u s) (T.Hh s) - s.eta • T.J s
/-- `B_nplus1`; `mrx/relaxation.py:347`. -/
noncomputable def Bnext (s : T.St) : T.Field := s.Bn + s.dt • (T.D.strongCurl *ᵥ T.E s)

/-- The computations of `midpoint_residuum`; `mrx/relaxation.py:311-364`. -/
noncomputable def update (s : T.St) : Update T.Field :=
  ⟨T.Bnext s, .fin (T.D.norm2 (T.Bnext s - s.Bguess)), .fin (T.D.norm2 (T.f s)), .fin (T.D.norm2 (T.u s))⟩

/-- The perturbation `B + pert_strength * dB_hat`; `mrx/utils.py:513-519`. -/
noncomputable def perturb (strength : ℝ) (dB : V3 → V3) (B : T.Field) : T.Field :=
  let d := T.D.leray T.pinv *ᵥ (T.D.M2⁻¹ *ᵥ T.D.projector2 dB)
  B + strength • ((T.D.norm2 d)⁻¹ • d)

end Stepper

/-! ## `MRXHessian` -/

namespace DeRham
variable (D : DeRham)

/-- `MRXHessian.δB`; `mrx/relaxation.py:23-41`. -/
noncomputable def deltaB (B u : Fin D.m2 → ℝ) : Fin D.m2 → ℝ := D.strongCurl *ᵥ (D.M1⁻¹ *ᵥ D.P2x1to1 u (D.P12 *ᵥ B))
/-- `MRXHessian.uxJ`; `mrx/relaxation.py:43-62`. -/
noncomputable def uxJ (B u : Fin D.m2 → ℝ) : Fin D.m1 → ℝ := D.M1⁻¹ *ᵥ D.P2x1to1 u (D.weakCurl *ᵥ B)

/-- `vmap(f, in_axes=(None, 1), out_axes=1)(B, eye)`: column `i` is the image of the `i`-th unit vector. -/
def columns {n m : Nat} (f : (Fin n → ℝ) → Fin m → ℝ) : Matrix (Fin m) (Fin n) ℝ := fun r i => f (Pi.single i 1) r

/-- `MRXHessian.assemble`; `mrx/relaxation.py:64-83`. -/
noncomputable def hessian (B : Fin D.m2 → ℝ) : Matrix (Fin D.m2) (Fin D.m2) ℝ :=
  let dB := columns (D.deltaB B)
  let LxJ := columns (D.uxJ B)
  let h := dBᵀ * D.M2 * dB + LxJᵀ * D.M12 * D.M2 * dB
  (1 / 2 : ℝ) • (h + hᵀ)

end DeRham

/-- The computations `run_relaxation_loop` sets up for a time stepper, for exact real vectors; `mrx/utils.py:460-475`. `dB` is
`CONFIG["dB_xyz"]`, `strength` is `CONFIG["pert_strength"]`. -/
noncomputable def Stepper.env (T : Stepper) (strength : ℝ) (dB : V3 → V3) (clock : Nat → ℝ) :
    RelaxEnv T.Field (Matrix (Fin T.D.m2) (Fin T.D.m2) ℝ) where
  upd := T.update
  energy B := .fin (T.D.energy B)
  helicity B := .fin (T.D.helicity B)
  divergence B := .fin (T.D.divergenceNorm B)
  hessian B := T.D.hessian B
  perturb B := T.perturb strength dB B
  clock := clock

end Mrx
