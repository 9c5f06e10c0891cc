import Verif.Model.RunFile

/-!
# From the HDF5 file of a run to the input of the Poincaré figures

`scripts/plotting/iter_plots.py:19-64, 203-216`, `stell_plots.py:19-53, 192-205`, `helix_plots.py:19-64, 186-199`, `solovev_poincare.py:18-58` and the head of the loop over the saved
fields: which file is opened, on which map the sequence is built again, and which fields are drawn to which files. The figures themselves are in `Model/Panels.lean`.
Paths are strings: two different strings are taken for two different files (no links, no `..`).
-/

set_option linter.unusedVariables false

namespace Mrx
open Real IO

/-- The file that is opened: `"script_outputs/iter/" + name + ".h5"`; `scripts/plotting/iter_plots.py:26`, `stell_plots.py:26` (`stell`), `helix_plots.py:26` (`helix`),
`solovev_poincare.py:19-20` (`iter`). -/
def plotFile (dir : String) (name : PyStr) : PyStr := "script_outputs/".toList ++ dir.toList ++ "/".toList ++ name ++ ".h5".toList

/-- The map of `iter_plots.py`, `helix_plots.py` and `solovev_poincare.py`; `scripts/plotting/iter_plots.py:42-54`, `solovev_poincare.py:36-48`. `delta` is read for the arcsine whatever the
type is. `helical_map` has no parameter `n_turns` (`mrx/mappings.py:70`). Simplification: strings are refused for `kappa` and `eps` at once; no run can be made with them. -/
noncomputable def plotMapOf (c : PyDict (ArgVal ℝ)) : Except String (V3 → V3) :=
  match configNum c "kappa", configNum c "eps", configNum c "delta", c.get? "type".toList with
  | .error e, _, _, _ => .error e
  | _, .error e, _, _ => .error e
  | _, _, .error e, _ => .error e
  | .ok _, .ok _, .ok _, none => .error "KeyError: 'type'"
  | .ok _, .ok _, .ok _, some t =>
    if t = .str "tokamak".toList then tokamakOf c
    else if t = .str "helix".toList then
      if (c.get? "h_helix".toList).isNone then .error "KeyError: 'h_helix'"
      else if (c.get? "m_helix".toList).isNone then .error "KeyError: 'm_helix'"
      else .error "TypeError: helical_map() got an unexpected keyword argument 'n_turns'"
    else if t = .str "rotating_ellipse".toList then
      if (c.get? "m_rot".toList).isNone then .error "KeyError: 'm_rot'" else ellipseOf c "m_rot"
    else .error "ValueError: Unknown configuration type."

/-- `os.path.join(a, b)`. -/
def joinPath (a b : PyStr) : PyStr :=
  if b.head? = some '/' then b else if a = [] ∨ a.getLast? = some '/' then a ++ b else a ++ '/' :: b

/-- `output_dir`; `scripts/plotting/iter_plots.py:203`. -/
def plotDir (dir : String) (name : PyStr) : PyStr := joinPath (joinPath (joinPath "script_outputs".toList dir.toList) name) "poincare".toList

/-- `os.path.join(output_dir, f"step_{plt_nr}.pdf")`; `scripts/plotting/iter_plots.py:351`. -/
def stepFile (dir : String) (name : PyStr) (i : Nat) : PyStr := joinPath (plotDir dir name) ("step_".toList ++ (toString i).toList ++ ".pdf".toList)

/-- What the figures are made of: the sequence, and for each figure its file, the degrees of freedom of the field and those of the pressure. -/
structure PlotInput where
  D : DeRham
  figures : List (PyStr × List ℝ × Option (List ℝ))

/-- `for plt_nr in range(B_fields.shape[0])`; `scripts/plotting/iter_plots.py:209-216`. -/
def plotFigures (dir : String) (name : PyStr) (Bs : List (List ℝ)) (ps : List (Option (List ℝ))) : List (PyStr × List ℝ × Option (List ℝ)) :=
  (List.range Bs.length).map fun i => (stepFile dir name i, Bs.getD i [], ps.getD i none)

/-- A Poincaré script with the given name of a run: `fs` are the files there are; `scripts/plotting/iter_plots.py:26-64, 203-216`. -/
noncomputable def openPlot (dir : String) (mapOf : PyDict (ArgVal ℝ) → Except String (V3 → V3)) (fs : PyStr → Option RunFile) (name : PyStr) : Except String PlotInput :=
  match fs (plotFile dir name) with
  | none => .error "FileNotFoundError"
  | some f =>
    match mapOf f.config with
    | .error e => .error e
    | .ok F =>
      match buildRun f.config F with
      | .error e => .error e
      | .ok D =>
        match f.fields with
        | none => .error "AttributeError: 'NoneType' object has no attribute 'shape'"
        | some (Bs, ps) => .ok ⟨D, plotFigures dir name Bs ps⟩

/-- The name on the command line; `scripts/plotting/iter_plots.py:23-26`. A name that `parse_args` takes for a number cannot be concatenated. -/
noncomputable def plotMain (dir : String) (mapOf : PyDict (ArgVal ℝ) → Except String (V3 → V3)) (fs : PyStr → Option RunFile) (params : PyDict (ArgVal ℝ)) : Except String PlotInput :=
  match params.get? "run_name".toList with
  | none => .error "KeyError: 'run_name'"
  | some (.str name) => openPlot dir mapOf fs name
  | some _ => .error "TypeError"

/-- `python iter_plots.py run_name=...`; `scripts/plotting/iter_plots.py:19-64`. -/
noncomputable def iterPlots := plotMain "iter" plotMapOf

/-- `python helix_plots.py run_name=...`; `scripts/plotting/helix_plots.py:19-64`. -/
noncomputable def helixPlots := plotMain "helix" plotMapOf

/-- `python stell_plots.py run_name=...`, with the map `rotating_ellipse_map(CONFIG["eps"], CONFIG["kappa"], CONFIG["n_fp"])`; `scripts/plotting/stell_plots.py:19-53`. -/
noncomputable def stellPlots := plotMain "stell" fun c => ellipseOf c "n_fp"

/-- `python solovev_poincare.py`; `scripts/plotting/solovev_poincare.py:18-58`. -/
noncomputable def solovevPoincare (fs : PyStr → Option RunFile) : Except String PlotInput := openPlot "iter" plotMapOf fs "default".toList

end Mrx
