import Verif.Model.Drum
import Mathlib.Analysis.SpecialFunctions.Trigonometric.Basic
import Mathlib.Analysis.SpecialFunctions.Pow.Real

/-!
# Model of the target shape and the optimisation loop of `scripts/interactive/drumshape.py`

The optimiser (optax) is a parameter: any function of the current parameters and its own state.
-/

namespace Mrx
open Matrix Finset Real

/-- `radius_func` at angle `θ`; `scripts/interactive/drumshape.py:178-194`. -/
noncomputable def ellipseRadius (a e θ : ℝ) : ℝ :=
  let b := a * e
  a * b / (b ^ 2 * cos (2 * π * θ) ^ 2 + a ^ 2 * sin (2 * π * θ) ^ 2) ^ (0.5 : ℝ)

/-- `get_Λmap_ijk`; `scripts/interactive/drumshape.py:159-168`. -/
noncomputable def targetGetter (Λmap : Form ℝ) (Q : Quad.Rule ℝ) : Getter := fun a j k => Λmap.evaluate (Q.x.getD j (0, 0, 0)) a k

/-- `M0`; `scripts/interactive/drumshape.py:170-176`. -/
noncomputable def targetMass (Λmap : Form ℝ) (Q : Quad.Rule ℝ) : Matrix (Fin Λmap.dims.n) (Fin Λmap.dims.n) ℝ :=
  assemble (targetGetter Λmap Q) (targetGetter Λmap Q) Q.x.length 1 (fun j => fun _ _ => Q.w.getD j 0) Λmap.dims.n Λmap.dims.n

/-- `a_target` for a radius function; `scripts/interactive/drumshape.py:196-198`. -/
noncomputable def targetCoefs (Λmap : Form ℝ) (Q : Quad.Rule ℝ) (radius : ℝ → ℝ) : Fin Λmap.dims.n → ℝ :=
  (targetMass Λmap Q)⁻¹ *ᵥ integrateAgainst (targetGetter Λmap Q) Q.x.length 1 (fun j _ => radius (Q.x.getD j (0, 0, 0)).1 * Q.w.getD j 0) Λmap.dims.n

/-- `setup_target_shape(n_map, p_map, a, e)`: `Λmap`, the quadrature rule, and `a_target` (zero outside its length); `scripts/interactive/drumshape.py:137-199`. -/
noncomputable def setupTargetShape (nm pm : Nat) (a e : ℝ) : Except String (Form ℝ × Quad.Rule ℝ × (Nat → ℝ)) :=
  match Form.mk? 0 (nm, 1, 1) (pm, 0, 0) ("periodic", "constant", "constant") with
  | .error m => .error m
  | .ok Λmap => match Quad.Rule.mk? Λmap.Λ0 Λmap.Λ1 Λmap.Λ2 (3 * pm) with
    | .error m => .error m
    | .ok Q => .ok (Λmap, Q, fun i => if h : i < Λmap.dims.n then targetCoefs Λmap Q (ellipseRadius a e) ⟨i, h⟩ else 0)

/-- The variables of the optimisation loop of `main`: the parameters, the state of the optimiser, the recorded losses, the value printed last, and the pictures made so far
(iteration number in the file name, parameters drawn, loss history drawn). -/
structure DrumRun (P O : Type) where
  aHat : P
  opt : O
  losses : List ℝ
  value : Option ℝ
  plots : List (Nat × P × List ℝ)

/-- The state before the loop; `scripts/interactive/drumshape.py:481-509`. -/
def DrumRun.init {P O : Type} (loss : P → ℝ) (a0 : P) (o0 : O) : DrumRun P O := ⟨a0, o0, [loss a0], none, [(0, a0, [loss a0])]⟩

/-- One pass of the loop (`upd` is `optimizer.update` followed by `optax.apply_updates`); `scripts/interactive/drumshape.py:513-537`. -/
def DrumRun.step {P O : Type} (loss : P → ℝ) (upd : P → O → P × O) (plotEvery : Nat) (s : DrumRun P O) (i : Nat) : DrumRun P O :=
  let value := loss s.aHat
  let r := upd s.aHat s.opt
  let losses := s.losses ++ [value]
  ⟨r.1, r.2, losses, some value, if (i + 1) % plotEvery = 0 then s.plots ++ [(i + 1, r.1, losses)] else s.plots⟩

/-- The loop `for i in range(NUM_STEPS)`; `scripts/interactive/drumshape.py:511-542`. -/
def DrumRun.run {P O : Type} (loss : P → ℝ) (upd : P → O → P × O) (plotEvery : Nat) (a0 : P) (o0 : O) (numSteps : Nat) : DrumRun P O :=
  (List.range numSteps).foldl (DrumRun.step loss upd plotEvery) (.init loss a0 o0)

end Mrx
