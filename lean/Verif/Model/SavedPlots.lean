import Verif.Model.Iota

/-!
# The plots of a saved run: `generate_solovev_plots`, `mrx/plotting.py:1277-1394`, and the domain set-up of the run it plots,
`scripts/config_scripts/solovev.py:57-67`

Drawing itself is not modelled: only which domain, which file names, which initial points and which plots are produced.
-/

set_option linter.unusedVariables false

namespace Mrx
open Real

/-- The configuration entries that describe the domain; `mrx/utils.py:269-282`. -/
structure DomainConfig where
  boundaryType : String
  eps : ℝ
  kappa : ℝ
  delta : ℝ
  nfp : Int
  hHelix : ℝ
  R0 : ℝ

/-- The map the run is computed with; `scripts/config_scripts/solovev.py:57-67`. The entry `R_0` is not used. -/
noncomputable def solveDomain (c : DomainConfig) : Except String (V3 → V3) :=
  if c.boundaryType = "tokamak" then .ok (cerfonMap c.eps c.kappa (arcsin c.delta) 1.0)
  else if c.boundaryType = "helix" then .ok (helicalMap c.eps c.hHelix c.kappa (arcsin c.delta) c.nfp)
  else if c.boundaryType = "rotating_ellipse" then rotatingEllipseMap c.eps c.kappa c.nfp
  else .error "Unknown boundary type."

/-- The map the results are plotted with; `mrx/plotting.py:1321-1326`. -/
noncomputable def plotDomain (c : DomainConfig) : V3 → V3 := cerfonMap c.eps c.kappa (arcsin c.delta) c.R0

/-- The iteration number in the file name of the plot of field number `i`; `mrx/plotting.py:1343-1345`. -/
def plotLabel (saveEvery i : Nat) : Nat := i * saveEvery

/-- Whether `poincare_plot` is called, depending on the presence of `B_final` and of the result of `is_running_in_github_actions()`;
`mrx/plotting.py:1353, 1391`. -/
def drawsPoincare (hasB inActions : Bool) : Bool :=
  if hasB && !inActions then (if inActions then true else false) else false

/-- The entries of `x0s` (before the transposition) row by row: radii, then angles, then toroidal angles; `mrx/plotting.py:1371-1375`. -/
noncomputable def seedRows (n : Nat) : List ℝ := linspace 0.05 0.95 n ++ List.replicate n 0 ++ List.replicate n 0

/-- `x0s.T.reshape(n_batch, n_loop, 3)[b, l, c]`; `mrx/plotting.py:1371-1375, 1389`. The array was transposed once already, so `x0s.T` has
the three rows of `seedRows`. -/
noncomputable def seed (nBatch nLoop b l : Nat) (c : Fin 3) : Option ℝ :=
  reshape3 (seedRows (nLoop * nBatch)) nLoop 3 b l c

end Mrx
