import Verif.Model.Scripts

/-!
# Model of the island perturbation of `iter_islands.py` and `stell.py`
-/

set_option linter.unusedVariables false

namespace Mrx
open Real Matrix

/-- `dB_xyz`; `scripts/config_scripts/iter_islands.py:86-94`, `stell.py:83-91`. `loc`, `width`, `pol`, `tor` are the entries `pert_radial_loc`,
`pert_radial_width`, `pert_pol_mode`, `pert_tor_mode` of the configuration. -/
noncomputable def islandPert (F : V3 → V3) (loc width pol tor : ℝ) (p : V3) : V3 :=
  let a := fun r : ℝ => exp (-(r - loc) ^ 2 / (2 * width ^ 2))
  (a (p 0) * sin (2 * π * p 1 * pol) * sin (2 * π * p 2 * tor)) • fun i => jacfwd F p i 0

end Mrx
