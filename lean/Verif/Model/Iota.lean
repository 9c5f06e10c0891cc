import Verif.Model.Mappings
import Verif.Model.Plotting
import Verif.Model.Geometry

/-!
# The rotational transform and the field-line tracing of the plotting scripts

`scripts/plotting/iter_plots.py:66-201` (the same functions are in `scripts/plotting/stell_plots.py:55-190` and, for `get_iota` and
`F_cyl_signed`, in `scripts/plotting/solovev_poincare.py:62-192`), and the seeds of `generate_solovev_plots`, `mrx/plotting.py:1317-1394`.

Exact real arithmetic. A trace of `N` samples is a function `Nat → V3` of which the entries `0 … N−1` count. The integration of the field
lines by diffrax is not modelled: the theorems take the samples, or a curve that solves the equation, as given. A quotient with
denominator zero is zero here; in the code it is Inf or NaN.
-/

set_option linter.unusedVariables false

namespace Mrx
open Real Matrix

/-- `jnp.mod(x, m)` for a positive `m`. -/
noncomputable def jmod (x m : ℝ) : ℝ := x - m * ⌊x / m⌋

/-- `jnp.mean` of `N` numbers. -/
noncomputable def jmean (N : Nat) (v : Nat → ℝ) : ℝ := (∑ k ∈ Finset.range N, v k) / N

/-- The change `jnp.unwrap` makes to one difference `dd` of neighbouring angles, with the default `discont = period / 2` and
`period = 2π` (library function: a difference of less than `π` is kept, any other is replaced by the representative in `[−π, π]`, with
`+π` instead of `−π` for a positive difference). -/
noncomputable def phCorrect (dd : ℝ) : ℝ :=
  let m := jmod (dd + π) (2 * π) - π
  let ddmod := if m = -π ∧ 0 < dd then π else m
  if |dd| < π then 0 else ddmod - dd

/-- `jnp.unwrap(p)`: the entry `k` plus the corrections of all the differences before it. -/
noncomputable def unwrap (p : Nat → ℝ) (k : Nat) : ℝ := p k + ∑ i ∈ Finset.range k, phCorrect (p (i + 1) - p i)

/-- `toroidal_unwrapped`; `scripts/plotting/iter_plots.py:183-186`, on `N` angles. -/
noncomputable def toroidalUnwrapped (N : Nat) (phi : Nat → ℝ) : ℝ :=
  (unwrap phi (N - 1) - unwrap phi 0) / (2 * π)

/-- `poloidal_unwrapped`; `scripts/plotting/iter_plots.py:188-192`. -/
noncomputable def poloidalUnwrapped (N : Nat) (R Z : Nat → ℝ) (Rc Zc : ℝ) : ℝ :=
  let θ := fun k => arctan2 (Z k - Zc) (R k - Rc)
  (unwrap θ (N - 1) - unwrap θ 0) / (2 * π)

/-- `get_iota` on a trace `c` of rows `(R, φ, z)`; `scripts/plotting/iter_plots.py:194-201`. The result is `(iota, m, n)`. -/
noncomputable def getIota (N : Nat) (c : Nat → V3) : ℝ × ℝ × ℝ :=
  let rMean := jmean N (fun k => |c k 0|)
  let zMean := jmean N (fun k => c k 2)
  let m := poloidalUnwrapped N (fun k => |c k 0|) (fun k => c k 2) rMean zMean
  let n := toroidalUnwrapped N (fun k => c k 1)
  (|m / n|, m, n)

/-- `jnp.sign`. -/
noncomputable def jsign (x : ℝ) : ℝ := if 0 < x then 1 else if x < 0 then -1 else 0

/-- `F_cyl_signed`; `scripts/plotting/iter_plots.py:140-148`. -/
noncomputable def cylSigned (x : V3) : V3 :=
  ![√ (x 0 ^ 2 + x 1 ^ 2) * jsign (sin (1e-16 + arctan2 (x 1) (x 0))), arctan2 (x 1) (x 0), x 2]

/-- `trajectories_Rphiz` and `get_iota` of one physical trace; `scripts/plotting/iter_plots.py:218-222`. -/
noncomputable def iotaOfTrace (N : Nat) (P : Nat → V3) : ℝ × ℝ × ℝ := getIota N (fun k => cylSigned (P k))

/-- `cond_fn` of `make_cond_fn(phi_target)` at the physical point `x`; `scripts/plotting/iter_plots.py:109-114`. -/
noncomputable def crossingCond (phiTarget : ℝ) (x : V3) : ℝ :=
  let phi := (arctan2 (x 1) (x 0) / π + 1) / 2
  sin (2 * π * (phi - phiTarget))

/-- `vector_field` of `integrate_fieldline`; `scripts/plotting/iter_plots.py:67-76`: all three coordinates are taken modulo one. -/
noncomputable def traceField (F B : V3 → V3) (x : V3) : V3 :=
  let y : V3 := fun j => Int.fract (x j)
  (norm3 (jacfwd F y *ᵥ B y))⁻¹ • B y

/-- `vector_field` of `get_crossings`; `scripts/plotting/iter_plots.py:94-104`; `lo` is the lower clipping bound, `1e-6`
(`1e-4` in `solovev_poincare.py:95`). -/
noncomputable def crossingField (lo : ℝ) (F B : V3 → V3) (x : V3) : V3 :=
  let y : V3 := ![min (max (Int.fract (x 0)) lo) 1, Int.fract (x 1), Int.fract (x 2)]
  (norm3 (jacfwd F y *ᵥ B y))⁻¹ • B y

/-- `vector_field` of `generate_solovev_plots`; `mrx/plotting.py:1357-1366`. -/
noncomputable def plotField (F B : V3 → V3) (p : V3) : V3 :=
  let x : V3 := ![min (max (p 0) 1e-6) 1, Int.fract (p 1), Int.fract (p 2)]
  let norm := √ ((jacfwd F x *ᵥ B x) ⬝ᵥ (jacfwd F x *ᵥ B x))
  (norm + 1e-9)⁻¹ • B x

/-- `F_cyl` of `poincare_plot`; `mrx/plotting.py:839-843`. -/
noncomputable def cylPoint (F : V3 → V3) (p : V3) : V3 :=
  ![√ ((F p) 0 ^ 2 + (F p) 1 ^ 2), arctan2 ((F p) 1) ((F p) 0), (F p) 2]

end Mrx
