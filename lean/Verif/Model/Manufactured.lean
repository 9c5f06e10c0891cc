import Verif.Model.Mappings
import Mathlib.Analysis.SpecialFunctions.Log.Basic

/-!
# Analytic data of the scripts: manufactured solutions and initial magnetic fields

The functions take logical points `x = (r, θ, ζ)`, as in the scripts. `jnp.ones(1) * v` (an array with one entry) is modelled by its entry.
-/

namespace Mrx.Manufactured
open Real

/-- `u` of `scripts/tutorials/polar_poisson.py:56-68`. -/
noncomputable def polarU (x : V3) : ℝ := 1 * (x 0 ^ 3 * (3 * log (x 0) - 2) / 27 + 2 / 27)

/-- `f` of `scripts/tutorials/polar_poisson.py:70-82`. -/
noncomputable def polarF (x : V3) : ℝ := -1 * x 0 * log (x 0)

/-- `u` of `scripts/tutorials/mixed_polar_poisson.py:62-74`. -/
noncomputable def mixedU (x : V3) : ℝ := -1 * (x 0 ^ 4 / 16 - x 0 ^ 3 / 12 + 1 / 48)

/-- The formula for `u` in the comments of `scripts/tutorials/mixed_polar_poisson.py:9,65`: `-(1/16)r⁴ + (1/12)r³ + 1/48`. -/
noncomputable def mixedUDocumented (x : V3) : ℝ := -(1 / 16) * x 0 ^ 4 + 1 / 12 * x 0 ^ 3 + 1 / 48

/-- `f` of `scripts/tutorials/mixed_polar_poisson.py:76-88`. -/
noncomputable def mixedF (x : V3) : ℝ := 1 * (x 0 - 3 / 4) * x 0

/-- `u` of `scripts/tutorials/toroid_poisson.py:52-64`. -/
noncomputable def toroidU (x : V3) : ℝ := (x 0 ^ 2 - x 0 ^ 4) * cos (2 * π * x 2) * 1

/-- `f` of `scripts/tutorials/toroid_poisson.py:66-79` with its constant `ɛ` (1/3 in the script). -/
noncomputable def toroidF (ε : ℝ) (x : V3) : ℝ :=
  let r := x 0
  let R := 1 + ε * r * cos (2 * π * x 1)
  cos (2 * π * x 2) * (-4 / ε ^ 2 * (1 - 4 * r ^ 2) - 4 / (ε * R) * (r / 2 - r ^ 3) * cos (2 * π * x 1) + (r ^ 2 - r ^ 4) / R ^ 2) * 1

/-- `u` of `scripts/interactive/toroid_poisson.py:42-54`. -/
noncomputable def toroidU2 (x : V3) : ℝ := 1 / 4 * (x 0 ^ 2 - x 0 ^ 4) * cos (2 * π * x 2) * 1

/-- `f` of `scripts/interactive/toroid_poisson.py:56-69` with its constants `a`, `R0` (1/3 and 1 in the script). -/
noncomputable def toroidF2 (a R0 : ℝ) (x : V3) : ℝ :=
  let r := x 0
  let R := R0 + a * r * cos (2 * π * x 1)
  cos (2 * π * x 2) *
    (-1 / a ^ 2 * (1 - 4 * r ^ 2) - 1 / (a * R) * (r / 2 - r ^ 3) * cos (2 * π * x 1) + 1 / 4 * (r ^ 2 - r ^ 4) / R ^ 2) * 1

/-- `u` of `test/test_cylinder_vector_poisson.py:45-49` and `scripts/interactive/cylinder_vector_poisson.py:43-57`. -/
noncomputable def cylinderU (x : V3) : V3 := ![0, x 0 ^ 2 * (1 - x 0) ^ 2 * cos (2 * π * x 2), 0]

/-- `f` of `test/test_cylinder_vector_poisson.py:51-55` and `scripts/interactive/cylinder_vector_poisson.py:59-73`. -/
noncomputable def cylinderF (x : V3) : V3 :=
  ![0, (x 0 ^ 2 * (1 - x 0) ^ 2 * 4 * π ^ 2 - (3 - 16 * x 0 + 15 * x 0 ^ 2)) * cos (2 * π * x 2), 0]

/-- `B_0` of `scripts/config_scripts/iter_islands.py:76-85` as a function of the physical point `F(p)`. With `kappa = 1` this is `B_xyz` of
`scripts/config_scripts/stell.py:69-78`. -/
noncomputable def solovevB (kappa tau : ℝ) (y : V3) : V3 :=
  let R := √ (y 0 ^ 2 + y 1 ^ 2)
  let phi := arctan2 (y 1) (y 0)
  let BR := y 2 * R
  let Bphi := tau / R
  let Bz := -(kappa ^ 2 / 2 * (R ^ 2 - 1 ^ 2) + y 2 ^ 2)
  ![BR * cos phi - Bphi * sin phi, BR * sin phi + Bphi * cos phi, Bz]

/-- `tau` of `scripts/config_scripts/iter_islands.py:60`. -/
noncomputable def iterTau (qStar kappa : ℝ) : ℝ := qStar * kappa * (1 + kappa ^ 2) / (kappa + 1)

/-- `B_xyz` of `scripts/config_scripts/hopf.py:134-150` as a function of the physical point `F(p)`. -/
noncomputable def hopfB (s ω1 ω2 : ℝ) (y : V3) : V3 :=
  let rsq := y 0 ^ 2 + y 1 ^ 2 + y 2 ^ 2
  (4 * √ s / (π * (1 + rsq) ^ 3 * √ (ω1 ^ 2 + ω2 ^ 2))) •
    ![2 * ω2 * y 1 - 2 * ω1 * y 0 * y 2, -2 * ω2 * y 0 - 2 * ω1 * y 1 * y 2, ω1 * (y 0 ^ 2 + y 1 ^ 2 - y 2 ^ 2 - 1)]

end Mrx.Manufactured
