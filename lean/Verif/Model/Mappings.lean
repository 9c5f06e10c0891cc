import Verif.Model.Geometry
import Mathlib.Analysis.SpecialFunctions.Trigonometric.Deriv
import Mathlib.Analysis.SpecialFunctions.Complex.Arg
import Mathlib.Analysis.Calculus.Deriv.Basic

/-!
# Model of `mrx/mappings.py` and of the point sets of `mrx/gvec_interface.py`

Logical and physical points are `V3`; exact real arithmetic, so `%` is the fractional part, `arctan2` is the principal argument
(signed zeros and the infinities are not modelled).
-/

namespace Mrx
open Real

/-- `jnp.arctan2(y, x)`, with values in `(−π, π]`. -/
noncomputable def arctan2 (y x : ℝ) : ℝ := Complex.arg ⟨x, y⟩

/-- `jnp.linalg.norm` of a vector with three components. -/
noncomputable def norm3 (v : V3) : ℝ := √ (v 0 ^ 2 + v 1 ^ 2 + v 2 ^ 2)

/-! ## `cerfon_map`, `mrx/mappings.py:12-67` -/

/-- `x_t`; `mrx/mappings.py:36-38`. -/
noncomputable def cerfonXt (epsilon alpha t : ℝ) : ℝ := 1 + epsilon * cos (2 * π * t + alpha * sin (2 * π * t))

/-- `y_t`; `mrx/mappings.py:40-42`. -/
noncomputable def cerfonYt (epsilon kappa t : ℝ) : ℝ := epsilon * kappa * sin (2 * π * t)

/-- `_s_from_t`; `mrx/mappings.py:44-49`. -/
noncomputable def cerfonS0 (kappa alpha t : ℝ) : ℝ :=
  arctan2 (kappa * sin (2 * π * t)) (cos (2 * π * t + alpha * sin (2 * π * t)))

/-- `s_from_t`; `mrx/mappings.py:51-53`. -/
noncomputable def cerfonS (kappa alpha t : ℝ) : ℝ :=
  if t > 0.5 then cerfonS0 kappa alpha t + 2 * π else cerfonS0 kappa alpha t

/-- `a_from_t`; `mrx/mappings.py:55-57`. -/
noncomputable def cerfonA (epsilon kappa alpha t : ℝ) : ℝ :=
  √ ((cerfonXt epsilon alpha t - 1) ^ 2 + cerfonYt epsilon kappa t ^ 2)

/-- `cerfon_map`; `mrx/mappings.py:59-67`. -/
noncomputable def cerfonMap (epsilon kappa alpha R0 : ℝ) (x : V3) : V3 :=
  let r := x 0
  let χ := x 1
  let z := x 2
  ![(R0 + cerfonA epsilon kappa alpha χ * r * cos (cerfonS kappa alpha χ)) * cos (2 * π * z),
    -(R0 + cerfonA epsilon kappa alpha χ * r * cos (cerfonS kappa alpha χ)) * sin (2 * π * z),
    cerfonA epsilon kappa alpha χ * r * sin (cerfonS kappa alpha χ)]

/-! ## `helical_map`, `mrx/mappings.py:70-120` -/

/-- `X`; `mrx/mappings.py:96-101`. `nfp` may be any number. -/
noncomputable def helixX (h kappa alpha nfp : ℝ) (ζ : ℝ) : V3 :=
  ![(1 + kappa * h * cos (2 * π * nfp * ζ + alpha)) * sin (2 * π * ζ),
    (1 + kappa * h * cos (2 * π * nfp * ζ + alpha)) * cos (2 * π * ζ),
    kappa * h * sin (2 * π * nfp * ζ + alpha)]

/-- `τ` of `get_frame`; `mrx/mappings.py:105-106`. -/
noncomputable def helixTau (h kappa alpha nfp : ℝ) (ζ : ℝ) : V3 :=
  (norm3 (deriv (helixX h kappa alpha nfp) ζ))⁻¹ • deriv (helixX h kappa alpha nfp) ζ

/-- `ν1` of `get_frame`; `mrx/mappings.py:107-109`. -/
noncomputable def helixNu1 (h kappa alpha nfp : ℝ) (ζ : ℝ) : V3 :=
  let dτ := deriv (deriv (helixX h kappa alpha nfp)) ζ
  let ν := (norm3 dτ)⁻¹ • dτ
  (norm3 ν)⁻¹ • ν

/-- `ν2` of `get_frame`; `mrx/mappings.py:110`. -/
noncomputable def helixNu2 (h kappa alpha nfp : ℝ) (ζ : ℝ) : V3 :=
  crossProduct (helixTau h kappa alpha nfp ζ) (helixNu1 h kappa alpha nfp ζ)

/-- `helical_map`; `mrx/mappings.py:113-120`. -/
noncomputable def helicalMap (epsilon h kappa alpha nfp : ℝ) (x : V3) : V3 :=
  let r := x 0
  let t := x 1
  let ζ := x 2
  helixX h kappa alpha nfp ζ + (epsilon * r * cos (2 * π * t)) • helixNu1 h kappa alpha nfp ζ
    + (epsilon * r * sin (2 * π * t)) • helixNu2 h kappa alpha nfp ζ

/-! ## `rotating_ellipse_map`, `mrx/mappings.py:123-164` -/

/-- `nu`; `mrx/mappings.py:147-148`. -/
noncomputable def ellipseNu (kappa : ℝ) (nfp : Int) (zeta : ℝ) : ℝ := 1 + (1 - kappa) * cos (2 * π * zeta * nfp)

/-- The function `F` returned by `rotating_ellipse_map`; `mrx/mappings.py:150-164`. -/
noncomputable def rotatingEllipseF (eps kappa : ℝ) (nfp : Int) (x : V3) : V3 :=
  let r := x 0
  let θ := x 1
  let ζ := if nfp > 0 then x 2 / nfp else x 2
  let R := 1 + eps * ellipseNu kappa nfp ζ * r * cos (2 * π * θ)
  let Z := if nfp > 0 then eps * r * ellipseNu kappa nfp (ζ + 0.5 / nfp) * sin (2 * π * θ)
           else eps * ellipseNu kappa nfp ζ * r * sin (2 * π * θ)
  ![R * cos (2 * π * ζ), -R * sin (2 * π * ζ), Z]

/-- `rotating_ellipse_map(eps, kappa, nfp)`; `mrx/mappings.py:123-164`. `.error` is the `ValueError`. -/
noncomputable def rotatingEllipseMap (eps kappa : ℝ) (nfp : Int) : Except String (V3 → V3) :=
  if nfp ≤ 0 then .error "nfp must be a positive integer"
  else if eps ≤ 0 then .error "eps must be a positive number"
  else .ok (rotatingEllipseF eps kappa nfp)

/-! ## The simple maps -/

/-- `toroid_map`; `mrx/mappings.py:167-195`. -/
noncomputable def toroidMap (epsilon kappa R0 : ℝ) (x : V3) : V3 :=
  let r := x 0
  let θ := x 1
  let ζ := x 2
  let R := R0 + epsilon * r * cos (2 * π * θ)
  ![R * cos (2 * π * ζ), -R * sin (2 * π * ζ), epsilon * kappa * r * sin (2 * π * θ)]

/-- `polar_map`; `mrx/mappings.py:198-210`. -/
noncomputable def polarMap (x : V3) : V3 :=
  let r := x 0
  let θ := x 1
  let z := x 2
  ![r * cos (2 * π * θ), -z, r * sin (2 * π * θ)]

/-- `cylinder_map`; `mrx/mappings.py:213-261`. -/
noncomputable def cylinderMap (a h : ℝ) (x : V3) : V3 :=
  let r := x 0
  let χ := x 1
  let z := x 2
  ![1 * (a * r * cos (2 * π * χ)), 1 * (a * r * sin (2 * π * χ)), h * 1 * z]

/-- `drumshape_map`; `mrx/mappings.py:264-291`. -/
noncomputable def drumshapeMap (aH : ℝ → ℝ) (x : V3) : V3 :=
  let r := x 0
  let χ := x 1
  let z := x 2
  ![aH χ * r * cos (2 * π * χ), -z, aH χ * r * sin (2 * π * χ)]

/-- `drumshape_map_modified`; `mrx/mappings.py:294-318`. -/
noncomputable def drumshapeMapModified (a : ℝ → ℝ) (R0 : ℝ) (x : V3) : V3 :=
  let r := x 0
  let χ := x 1
  let z := x 2
  let R := 1 * (R0 + a χ * r * cos (2 * π * χ))
  ![R * cos (2 * π * z), -R * sin (2 * π * z), 1 * a χ * r * sin (2 * π * χ)]

/-- `gvec_stellarator_map`; `mrx/mappings.py:321-346`. -/
noncomputable def gvecStellaratorMap (X1h X2h : V3 → Fin 1 → ℝ) (nfp : ℝ) (x : V3) : V3 :=
  let πnfp := π / nfp
  let ζ := x 2
  ![X1h x 0 * cos (πnfp * ζ), -X1h x 0 * sin (πnfp * ζ), X2h x 0]

/-! ## Inverse maps -/

/-- `approx_inverse_map`; `mrx/mappings.py:349-370`. (`x / 0 = 0` here, whereas the code produces NaN: on the axis `r = 0`.) -/
noncomputable def approxInverseMap (y : V3) (eps R0 : ℝ) : V3 :=
  let X := y 0
  let Y := y 1
  let Z := y 2
  let R := √ (X ^ 2 + Y ^ 2)
  let ζ := Int.fract (arctan2 (-Y) X / (2 * π))
  let r := √ (((R - R0) / eps) ^ 2 + (Z / eps) ^ 2)
  let θ := Int.fract (arctan2 (Z / (eps * r)) ((R - R0) / (eps * r)) / (2 * π))
  ![r, θ, ζ]

/-! ## `get_lcfs_F`, `mrx/mappings.py:416-551` -/

/-- `_psi` inside `psi`; `mrx/mappings.py:458-459`. -/
noncomputable def lcfsPsi0 (R0 k0 q0 R Z : ℝ) : ℝ :=
  (k0 ^ 2 / 4 * (R ^ 2 - R0 ^ 2) ^ 2 + R ^ 2 * Z ^ 2) / (2 * R0 ^ 2 * k0 * q0)

/-- `psi`; `mrx/mappings.py:457-460`. -/
noncomputable def lcfsPsi (R0 k0 q0 aR R Z : ℝ) : ℝ := lcfsPsi0 R0 k0 q0 R Z - lcfsPsi0 R0 k0 q0 (R0 + aR) 0

/-- `loss`; `mrx/mappings.py:467-491`, for a radius function `a` of the angle and a quadrature rule given as
`(χ_j, w_j)`. The Levenberg–Marquardt minimiser itself (`optimistix`) is not modelled. -/
noncomputable def lcfsLoss (R0 k0 q0 aR : ℝ) (a : ℝ → ℝ) (Q : List (ℝ × ℝ)) : ℝ :=
  (Q.map fun q =>
    let χ := q.1
    let R := R0 + a χ * cos (2 * π * χ)
    let Z := a χ * sin (2 * π * χ)
    q.2 * lcfsPsi R0 k0 q0 aR R Z ^ 2).sum

/-! ## `mrx/gvec_interface.py` -/

/-- One row of `pts`: the logical coordinates of the grid point `(ρ, θ, ζ)`; `mrx/gvec_interface.py:37-39, 89-91`. -/
noncomputable def gvecPoint (nfp ρ θ ζ : ℝ) : V3 := ![ρ, θ / (2 * π), ζ / (2 * π) * nfp]

/-- `valid_pts` of `interpolate_B_from_GVEC`; `mrx/gvec_interface.py:93`. The argument `exclude_axis_tol` is accepted and not used. -/
noncomputable def gvecValid (excludeAxisTol : ℝ) (pt : V3) : Bool :=
  (fun _ => decide (pt 0 > 1e-3 ∧ pt 0 < 1 - 1e-3)) excludeAxisTol

end Mrx
