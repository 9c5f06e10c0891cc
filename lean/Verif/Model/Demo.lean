import Verif.Model.Relaxation
import Verif.Model.Scripts
import Verif.Model.Manufactured
import Verif.Model.Diagnostics
import Verif.Model.Figures

/-!
# Model of the tutorial notebook `MRX_tokamak_demo.ipynb`

Cells are counted from 0, markdown cells included. The relaxation is modelled for arbitrary results of the numerical computations, as in `Model/Relaxation.lean`; field lines and the look of figures
are left out. `jax.jit` is the identity.
-/

namespace Mrx.Demo
open Matrix

section
variable {V H : Type}

/-- `state.picard_residuum > timestepper.picard_tol or ~jnp.isfinite(state.picard_residuum)`; cells 28 and 30. -/
def failed (tol : ℝ) (s : State V H) : Prop := FV.gt s.picardResiduum (.fin tol) ∨ ¬ s.picardResiduum.isfinite

open Classical in
/-- The body of the inner Python loop; cell 28, lines 4-19. -/
noncomputable def loopBody (step : State V H → State V H) (tol : ℝ) (s0 : State V H) : State V H :=
  let s := step s0
  if failed tol s then
    let s1 := s.updateDt (s.dt / 2)
    s1.updateBguess s1.Bn
  else
    let s1 := s.updateBn s.Bguess
    let dtNew := if s1.picardIterations < 4 then s1.dt * 1.01 else s1.dt / 1.01
    s1.updateDt dtNew

/-- `on_fail`; cell 30, lines 5-8 (the same text in cell 65). -/
noncomputable def onFail (s : State V H) : State V H := (s.updateDt (s.dt / 2)).updateBguess (s.updateDt (s.dt / 2)).Bn

open Classical in
/-- `on_success`: `jnp.where` chooses between the two step sizes; cell 30, lines 9-14 (the same text in cell 65). -/
noncomputable def onSuccess (s : State V H) : State V H :=
  let s1 := s.updateBn s.Bguess
  s1.updateDt (if s1.picardIterations < 4 then s1.dt * 1.01 else s1.dt / 1.01)

open Classical in
/-- `body_fn`: `jax.lax.cond(failed, on_fail, on_success, state)`; cell 30 (the same text in cell 65). -/
noncomputable def bodyFn (step : State V H → State V H) (tol : ℝ) (s0 : State V H) : State V H :=
  let s := step s0
  (if failed tol s then onFail else onSuccess) s

/-- The variables of the notebook the relaxation changes. -/
structure Vars (V H : Type) where
  state : State V H
  force : List FV
  helicity : List FV
  /-- The numbers printed after `Iteration`. -/
  printed : List Int

/-- `dry_run` and the first entries of the traces; cells 24 and 26 (63 for the second equilibrium). -/
noncomputable def start (step : State V H → State V H) (hel : V → FV) (s : State V H) : Vars V H :=
  ⟨s, [(step s).forceNorm], [hel (step s).Bn], []⟩

/-- One pass of the outer loop: `inner` iterations, then the entries of the traces and the printed number `(i + offset) * inner`; cells 28, 31 and 67. -/
noncomputable def outerPass (body : State V H → State V H) (hel : V → FV) (inner : Nat) (offset : Int) (i : Nat) (v : Vars V H) : Vars V H :=
  let s := body^[inner] v.state
  ⟨s, v.force ++ [s.forceNorm], v.helicity ++ [hel s.Bn], v.printed ++ [((i : Int) + offset) * inner]⟩

/-- `for i in range(outer)`. -/
noncomputable def outerLoop (body : State V H → State V H) (hel : V → FV) (inner : Nat) (offset : Int) (outer : Nat) (v : Vars V H) : Vars V H :=
  (List.range outer).foldl (fun v i => outerPass body hel inner offset i v) v

/-- The relaxation of the first equilibrium: ten passes of the Python loop, then ten with `lax.scan`; cells 24-31. -/
noncomputable def relaxTokamak (step : State V H → State V H) (tol : ℝ) (hel : V → FV) (s : State V H) : Vars V H :=
  outerLoop (bodyFn step tol) hel 100 11 10 (outerLoop (loopBody step tol) hel 100 1 10 (start step hel s))

/-- The relaxation of the GVEC equilibrium: 25 passes, printed `(i) * num_iters_inner`; cells 63-67. -/
noncomputable def relaxGvec (step : State V H → State V H) (tol : ℝ) (hel : V → FV) (s : State V H) : Vars V H :=
  outerLoop (bodyFn step tol) hel 100 0 25 (start step hel s)

/-- The settings of `run_relaxation_loop` nearest to the notebook: `dt_factor=1.01`, `solver_critit=4`, no Hessian, no perturbation. -/
def libraryConfig (tol : ℝ) (maxit : Int) (iterations : Nat) (forceTol : ℝ) (saveEvery : Nat) : RelaxConfig where
  maxit := iterations
  solverTol := tol
  solverMaxit := maxit
  solverCritit := 4
  dtFactor := 1.01
  forceTol := forceTol
  precond := false
  precondEvery := 10
  pertStrength := 0
  applyPertAfter := 0
  saveEvery := saveEvery
  saveB := false

end

/-! ## The set-up of the first equilibrium -/

/-- `Phi` with `ɛ = 0.33` and `κ = 1.1`; cell 7. -/
noncomputable def phi (x : V3) : V3 :=
  let R := 1 + 0.33 * x 0 * Real.cos (2 * Real.pi * x 1)
  let Z := 0.33 * 1.1 * x 0 * Real.sin (2 * Real.pi * x 1)
  ![R * Real.cos (2 * Real.pi * x 2), -R * Real.sin (2 * Real.pi * x 2), Z]

/-- `Seq`; cells 9 and 11. -/
noncomputable def seq : Except String DeRham := DeRham.mk? (12, 12, 1) (3, 3, 0) 5 ("clamped", "periodic", "constant") phi true true

/-- `τ`; cell 13. -/
noncomputable def tau : ℝ := 1.54 * 1.1 * (1.1 ^ 2 + 1) / (1.1 + 1)

/-- `B_0`; cell 13. `(x**2 + y**2)**0.5` is the square root. -/
noncomputable def b0 (p : V3) : V3 :=
  let y := phi p
  let R := √ (y 0 ^ 2 + y 1 ^ 2)
  let φ := arctan2 (y 1) (y 0)
  let BR := y 2 * R
  let Bphi := tau / R
  let Bz := -(0.5 * 1.1 ^ 2 * (R ^ 2 - 1 ^ 2) + y 2 ^ 2)
  ![BR * Real.cos φ - Bphi * Real.sin φ, BR * Real.sin φ + Bphi * Real.cos φ, Bz]

/-- `B_dof`: the projection `solve(M2, P2(B_0))`, its Leray projection, normalised; cell 15. `X` is the pseudo-inverse in `P_Leray`. -/
noncomputable def initialField (D : DeRham) (X : Matrix (Fin D.m3) (Fin D.m3) ℝ) : Fin D.m2 → ℝ := D.normalize (D.divfreeProjection X b0)

/-- `state`; cell 19. `None` for the Hessian is any matrix, which is never read. -/
noncomputable def initialState (T : Stepper) (H : Matrix (Fin T.D.m2) (Fin T.D.m2) ℝ) : T.St :=
  ⟨initialField T.D T.pinv, initialField T.D T.pinv, 1e-3, 0, H, 0, .fin 0, .fin 0, .fin 0⟩

/-! ## Diagnostics -/

variable (D : DeRham)

/-- `p_avg = p_dof @ Seq.P0(lambda x: jnp.ones(1)) / (Seq.J_j @ Seq.Q.w)`; cell 39. -/
noncomputable def pAvg (p : Fin D.m0 → ℝ) : ℝ := (p ⬝ᵥ D.projector0 fun _ _ => 1) / ∑ j ∈ Finset.range D.S.Q.w.length, D.g.J j * D.S.Q.w.getD j 0

/-- `beta = 2 * p_avg / (state.B_n @ Seq.M2 @ state.B_n)`; cell 39. -/
noncomputable def beta (B : Fin D.m2 → ℝ) (p : Fin D.m0 → ℝ) : ℝ := 2 * pAvg D p / (B ⬝ᵥ D.M2 *ᵥ B)

/-- `jnp.argmax` of a list: the first place of its largest entry. -/
noncomputable def argmax (l : List ℝ) : Nat := l.idxOf (Figures.maxOf l)

/-- `x_max = _x[jnp.argmax(jax.vmap(p_h)(_x_hat))]` with the grids of `get_2d_grids(Phi, cut_value=0, cut_axis=2)`; cell 41. -/
noncomputable def xMax (F : V3 → V3) (p : V3 → ℝ) (args : Grid2Args) : V3 :=
  let g := get2dGrids F 0 2 args
  g.y.getD (argmax (g.x.map p)) 0

/-- `δR = jnp.linalg.norm(x_max - jnp.array([1.0, 0.0, 0.0]))`; cell 41. -/
noncomputable def shift (F : V3 → V3) (p : V3 → ℝ) (args : Grid2Args) : ℝ := vnorm (xMax F p args - ![1, 0, 0])

/-- The pressure shown for the first equilibrium: `get_pressure(state.B_n)`; cell 35. -/
noncomputable def shownTokamak (B : Fin D.m2 → ℝ) {H : Type} (v : Vars (Fin D.m2 → ℝ) H) : Fin D.m0 → ℝ :=
  let _initial := B
  D.pressure v.state.Bn

/-- The pressure shown for the GVEC equilibrium after its relaxation: `get_pressure(B_dof)` with the field before it; cell 69. -/
noncomputable def shownGvec (B : Fin D.m2 → ℝ) {H : Type} (v : Vars (Fin D.m2 → ℝ) H) : Fin D.m0 → ℝ :=
  let _relaxed := v.state.Bn
  D.pressure B

end Mrx.Demo
