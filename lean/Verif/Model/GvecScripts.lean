import Verif.Model.Scripts
import Verif.Model.Gvec
import Mathlib.Analysis.SpecialFunctions.Log.Basic

/-!
# `scripts/interactive/test_gvec_tokamak.py` and `test_gvec_stellarator.py`

The fit of the coordinate functions of the tokamak data, the study of the projection error, the checks of the spectra, and the curves of the figure of the map. `lstsq` and the eigenvalue
routine are parameters, printing and the appearance of the figures are not modelled. (The fit of the stellarator map and of its magnetic field repeat `mrx/gvec_interface.py`, see
`Verif.Model.Gvec`.)
-/

namespace Mrx.GvecScripts
open Matrix

/-! ## The tokamak map -/

/-- The entries of `gvec_tokamak.h5` that are used; `scripts/interactive/test_gvec_tokamak.py:23-27`. (`theta` only gives the shape: its values are not used.) -/
structure Tokamak where
  rho : List ℝ
  theta : List ℝ
  thetastar : Nat → Nat → ℝ
  X1 : Nat → Nat → ℝ
  X2 : Nat → Nat → ℝ

namespace Tokamak
variable (eq : Tokamak)

/-- Number of grid points. -/
def size : Nat := eq.rho.length * eq.theta.length

/-- `a.ravel()`. -/
def ravel (a : Nat → Nat → ℝ) (n : Nat) : ℝ := a (n / eq.theta.length) (n % eq.theta.length)

/-- `pts[n]`; `scripts/interactive/test_gvec_tokamak.py:42-46`. -/
noncomputable def pts (n : Nat) : V3 := ![eq.ravel (fun i _ => eq.rho.getD i 0) n, eq.ravel eq.thetastar n / (2 * Real.pi), 0]

/-- `M[j, i] = Λ0[i](pts[j])`; `scripts/interactive/test_gvec_tokamak.py:48-50`. -/
noncomputable def design (D : DeRham) : Matrix (Fin eq.size) (Fin D.S.L0.dims.n) ℝ :=
  fun j i => D.S.L0.evaluate (DeRham.fromV3 (eq.pts j)) i 0

/-- A column of `c`; `scripts/interactive/test_gvec_tokamak.py:51-54`. -/
noncomputable def fit (lstsq : Lstsq) (D : DeRham) (X : Nat → Nat → ℝ) : Fin D.S.L0.dims.n → ℝ :=
  lstsq _ _ (eq.design D) fun j => eq.ravel X j

end Tokamak

/-! ## The study of the projection error -/

/-- `f` of the tokamak script; `scripts/interactive/test_gvec_tokamak.py:65-67`. -/
noncomputable def target2 (x : V3) : Fin 1 → ℝ := fun _ => Real.sin (2 * Real.pi * x 1) * Real.sin (Real.pi * x 0)

/-- `f` of the stellarator script; `scripts/interactive/test_gvec_stellarator.py:156-158`. -/
noncomputable def target3 (x : V3) : Fin 1 → ℝ := fun _ => Real.sin (2 * Real.pi * x 1) * Real.sin (2 * Real.pi * x 2) * Real.sin (Real.pi * x 0)

/-- `jnp.linalg.solve(Seq.M0, Seq.P0(f))`; `scripts/interactive/test_gvec_tokamak.py:83`, `test_gvec_stellarator.py:168`. -/
noncomputable def projection (D : DeRham) (f : V3 → Fin 1 → ℝ) : Fin D.m0 → ℝ := D.M0⁻¹ *ᵥ D.projector0 f

/-- `error = L2_dp / L2_p`; `scripts/interactive/test_gvec_tokamak.py:84-101`, `test_gvec_stellarator.py:169-184`. -/
noncomputable def projectionError (D : DeRham) (f : V3 → Fin 1 → ℝ) : ℝ :=
  D.relativeError f fun y k => discreteFunction D.S.L0 (projection D f) D.E0 (DeRham.fromV3 y) k

/-- `rates`; `scripts/interactive/test_gvec_stellarator.py:203-204`. -/
noncomputable def rates (ns errs : List ℝ) : List ℝ :=
  (List.range (ns.length - 1)).map fun i => -(Real.log (errs.getD i 0 / errs.getD (i + 1) 0) / Real.log (ns.getD i 0 / ns.getD (i + 1) 0))

/-- `jnp.mean`. (0 for an empty list, NaN in the code.) -/
noncomputable def mean (l : List ℝ) : ℝ := l.sum / l.length

/-- `assert jnp.mean(rates) >= p + 1`; `scripts/interactive/test_gvec_stellarator.py:205-206`. -/
def RatesOk (p : Nat) (ns errs : List ℝ) : Prop := (p : ℝ) + 1 ≤ mean (rates ns errs)

/-- The dashed line `[projection_errs[-1] * 0.9 * (n/ns[-1])**(-(p + 1)) for n in ns]`; `scripts/interactive/test_gvec_tokamak.py:109`, `test_gvec_stellarator.py:211`. -/
noncomputable def reference (p : Nat) (ns errs : List ℝ) : List ℝ :=
  ns.map fun n => errs.getLastD 0 * (9 / 10) * (n / ns.getLastD 0) ^ (-((p : ℤ) + 1))

/-! ## The checks of the spectra -/

/-- `assert min_eig > -1e-10` and the assertion on `λ0 = vals[0]`; `scripts/interactive/test_gvec_tokamak.py:212-229`, `test_gvec_stellarator.py:126-143`. -/
def NullCheck (vals : List ℝ) (shouldBeZero : Bool) : Prop :=
  (∀ v ∈ vals, -(1 / 10 ^ 10) < v) ∧ ∃ v, vals.head? = some v ∧ if shouldBeZero then |v| < 1 / 10 ^ 10 else 1 / 10 ^ 6 < |v|

/-- `expected_nulls`; `scripts/interactive/test_gvec_tokamak.py:210`, `test_gvec_stellarator.py:124`. -/
def expectedNulls : List Bool := [false, false, true, true]

/-- The loop over the four spectra; `scripts/interactive/test_gvec_tokamak.py:211-229`, `test_gvec_stellarator.py:125-143`. -/
def SpectraOk (eigs : List (List ℝ)) : Prop := ∀ e ∈ eigs.zip expectedNulls, NullCheck e.1 e.2

/-- `jnp.max(jnp.abs(A))`. -/
noncomputable def maxAbs {m n : Nat} (A : Matrix (Fin m) (Fin n) ℝ) : ℝ := ⨆ ij : Fin m × Fin n, |A ij.1 ij.2|

/-- `curl_grad` and `div_curl`; `scripts/interactive/test_gvec_tokamak.py:231-232`, `test_gvec_stellarator.py:145-146`. -/
noncomputable def exactness (D : DeRham) : ℝ × ℝ := (maxAbs (D.strongCurl * D.strongGrad), maxAbs (D.strongDiv * D.strongCurl))

/-! ## The figure of the map -/

/-- `jnp.linspace(0.0, b, n)`. -/
noncomputable def linspace (b : ℝ) (n : Nat) : List ℝ := (List.range n).map fun k : Nat => b * k / ((n - 1 : Nat) : ℝ)

/-- `eval_map(rho, thetas)`: the curve of constant radius; `scripts/interactive/test_gvec_tokamak.py:136-144` (`zeta = 0`), `test_gvec_stellarator.py:239-247` (`zeta = 0.5`). -/
noncomputable def evalMap (zeta : ℝ) (X1h X2h : V3 → Fin 1 → ℝ) (rho : ℝ) (thetas : List ℝ) : List (ℝ × ℝ) :=
  thetas.map fun t => (X1h ![rho, Int.fract (t / (2 * Real.pi)), zeta] 0, X2h ![rho, Int.fract (t / (2 * Real.pi)), zeta] 0)

/-- `eval_map_theta(theta_norm)`: the line of constant angle; `scripts/interactive/test_gvec_tokamak.py:151-159`, `test_gvec_stellarator.py:254-262`. -/
noncomputable def evalMapTheta (zeta : ℝ) (X1h X2h : V3 → Fin 1 → ℝ) (theta : ℝ) : List (ℝ × ℝ) :=
  (linspace 1 80).map fun r => (X1h ![r, theta, zeta] 0, X2h ![r, theta, zeta] 0)

/-- The black curves: `nrho` is 9 in `scripts/interactive/test_gvec_tokamak.py:168-170` and 16 in `test_gvec_stellarator.py:272-274`. -/
noncomputable def blackCurves (nrho : Nat) (zeta : ℝ) (X1h X2h : V3 → Fin 1 → ℝ) : List (List (ℝ × ℝ)) :=
  (linspace 1 nrho).map fun r => evalMap zeta X1h X2h r (linspace (2 * Real.pi) 180)

/-- The red lines, `np.linspace(0, 1, n, endpoint=False)`: `nθ` is 12 in `scripts/interactive/test_gvec_tokamak.py:173-175` and 16 in `test_gvec_stellarator.py:277-279`. -/
noncomputable def redLines (ntheta : Nat) (zeta : ℝ) (X1h X2h : V3 → Fin 1 → ℝ) : List (List (ℝ × ℝ)) :=
  (List.range ntheta).map fun k : Nat => evalMapTheta zeta X1h X2h ((k : ℝ) / ntheta)

/-- `R_axis, Z_axis = eval_map(0.0, jnp.array([0.0]))`, shown in the title; `scripts/interactive/test_gvec_tokamak.py:178-179`, `test_gvec_stellarator.py:282-283`. -/
noncomputable def titleAxis (zeta : ℝ) (X1h X2h : V3 → Fin 1 → ℝ) : ℝ × ℝ := (evalMap zeta X1h X2h 0 [0]).headD (0, 0)

end Mrx.GvecScripts
