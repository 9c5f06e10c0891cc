import Verif.Model.Float
import Verif.Model.Loop
import Verif.Model.Geometry

/-!
# Model of `mrx/iterative_solvers.py` and of `invert_map` (`mrx/mappings.py:373-413`)

The state is a pair `(x, aux)`. `X` is any type of primary unknowns (arrays, possibly with NaN entries) with a subtraction and with
`mix α a b`, the value of `alpha * a + (1 - alpha) * b`; norms take values in `FV`.
-/

namespace Mrx

/-- The array operations `picard_solver` uses. -/
class Arr (X : Type) where
  sub : X → X → X
  /-- `alpha * a + (1 - alpha) * b`; `mrx/iterative_solvers.py:68`. -/
  mix : FV → X → X → X

/-- The loop state `(z_prev, z, i)`. -/
structure PicardState (X A : Type) where
  zPrev : X × A
  z : X × A
  i : Int

section
variable {X A : Type} [Arr X] (f : X × A → X × A) (tol : FV) (maxIter : Int) (norm : X → FV)

/-- `norm(f(z)[0] - z[0])`; `mrx/iterative_solvers.py:45`. -/
def residual (z : X × A) : FV := norm (Arr.sub (f z).1 z.1)

/-- `cond_fun`; `mrx/iterative_solvers.py:29-47`. -/
def picardCond (s : PicardState X A) : Prop :=
  s.i < maxIter ∧ (FV.gt (residual f norm s.z) tol ∨ (residual f norm s.z).isnan)

/-- `alpha`; `mrx/iterative_solvers.py:64-67`. -/
noncomputable def picardAlpha (s : PicardState X A) : FV :=
  if s.i = 0 then .fin 1
  else FV.clip01 (FV.div (norm (Arr.sub (f s.z).1 s.z.1)) (FV.add (norm (Arr.sub s.z.1 s.zPrev.1)) (.fin 1e-12)))

/-- `body_fun`; `mrx/iterative_solvers.py:49-69`. -/
noncomputable def picardBody (s : PicardState X A) : PicardState X A :=
  ⟨s.z, (Arr.mix (picardAlpha f norm s) (f s.z).1 s.z.1, (f s.z).2), s.i + 1⟩

/-- `picard_solver`: `(z_star, residual, iters)`; `mrx/iterative_solvers.py:5-78`. -/
noncomputable def picardSolver (zInit : X × A) (fuel : Nat) : Option ((X × A) × FV × Int) :=
  (whileLoop (picardCond f tol maxIter norm) (picardBody f norm) fuel ⟨zInit, f zInit, 0⟩).map fun s =>
    let z := if s.i = 0 then f s.z else s.z
    (z, residual f norm z, s.i)

end

/-! ## Real arrays -/

open Matrix

/-- Exact real vectors: `alpha` outside the reals gives an unspecified (junk) vector. -/
noncomputable instance (n : Nat) : Arr (Fin n → ℝ) where
  sub a b := a - b
  mix α a b := match α with
    | .fin r => r • a + (1 - r) • b
    | _ => Classical.arbitrary _

/-- `jax.jacrev(F)(x)`, `jax.jacobian(F)(x)` for `F` from `ℝⁿ` to `ℝᵐ`: entry `[i, j] = ∂F_i/∂x_j`. -/
noncomputable def jacrev {n m : Nat} (F : (Fin n → ℝ) → Fin m → ℝ) (x : Fin n → ℝ) : Matrix (Fin m) (Fin n) ℝ :=
  fun i j => fderiv ℝ F x (Pi.single j 1) i

/-- `F(x_) = f((x_, aux))[0] - x_`; `mrx/iterative_solvers.py:110-111`. -/
def newtonF {n : Nat} {A : Type} (f : (Fin n → ℝ) × A → (Fin n → ℝ) × A) (aux : A) (x : Fin n → ℝ) : Fin n → ℝ := (f (x, aux)).1 - x

/-- `g`, one Newton update; `mrx/iterative_solvers.py:105-119`. -/
noncomputable def newtonMap {n : Nat} {A : Type} (f : (Fin n → ℝ) × A → (Fin n → ℝ) × A) (z : (Fin n → ℝ) × A) : (Fin n → ℝ) × A :=
  let dx := (jacrev (newtonF f z.2) z.1)⁻¹ *ᵥ newtonF f z.2 z.1
  let xNext := z.1 - dx
  (xNext, (f (xNext, z.2)).2)

/-- `newton_solver`; `mrx/iterative_solvers.py:80-122`. -/
noncomputable def newtonSolver {n : Nat} {A : Type} (f : (Fin n → ℝ) × A → (Fin n → ℝ) × A) (tol : FV) (maxIter : Int)
    (norm : (Fin n → ℝ) → FV) (zInit : (Fin n → ℝ) × A) (fuel : Nat) : Option (((Fin n → ℝ) × A) × FV × Int) :=
  picardSolver (newtonMap f) tol maxIter norm zInit fuel

/-! ## `invert_map` -/

/-- The loop state `(x, err, i)`. -/
structure InvertState (X : Type) where
  x : X
  err : FV
  i : Int

/-- The loop of `invert_map` for any update `step` and residual norm `err`; `mrx/mappings.py:396-412`. The result is
`(x_final, err_final, i)`, of which `invert_map` returns `x_final`. -/
noncomputable def invertLoop {X : Type} (step : X → X) (err : X → FV) (tol : FV) (maxIter : Int) (x0 : X) (fuel : Nat) :
    Option (InvertState X) :=
  whileLoop (fun s : InvertState X => FV.gt s.err tol ∧ s.i < maxIter) (fun s => ⟨step s.x, err s.x, s.i + 1⟩) fuel ⟨x0, .posInf, 0⟩

/-- `jnp.linalg.norm` of a real vector. -/
noncomputable def euclid {n : Nat} (r : Fin n → ℝ) : FV := .fin (Real.sqrt (∑ i, r i ^ 2))

/-- `x + solve(jacobian(f)(x), -(f(x) - y_target))`; `mrx/mappings.py:403-407`. -/
noncomputable def invertStep {n : Nat} (f : (Fin n → ℝ) → Fin n → ℝ) (y x : Fin n → ℝ) : Fin n → ℝ :=
  x + (jacrev f x)⁻¹ *ᵥ (-(f x - y))

/-- `invert_map(f, y_target, x0_fn, tol, max_iter)` for a real map; `mrx/mappings.py:373-413`. -/
noncomputable def invertMap {n : Nat} (f : (Fin n → ℝ) → Fin n → ℝ) (y : Fin n → ℝ) (x0Fn : (Fin n → ℝ) → Fin n → ℝ) (tol : FV)
    (maxIter : Int) (fuel : Nat) : Option (Fin n → ℝ) :=
  (invertLoop (invertStep f y) (fun x => euclid (f x - y)) tol maxIter (x0Fn y) fuel).map (·.x)

end Mrx
