import Verif.Model.PlotScripts
import Verif.Model.SavedPlots

/-!
# `scripts/plotting/solovev_plots.py` and the pressure figures of `generate_solovev_plots`

`mrx/plotting.py:1277-1346` up to the pressure figures: which file is opened, the sequence that is built again, and the degrees of freedom that are drawn to which files. The curves of `trace_plot` are in
`Model/Figures.lean`, the Poincaré plot in `Model/SavedPlots.lean`.
-/

set_option linter.unusedVariables false

namespace Mrx
open Real IO

/-- `outdir`; `mrx/plotting.py:1294`. -/
def savedDir (name : PyStr) : PyStr := "script_outputs/solovev/".toList ++ name ++ "/".toList

/-- `outdir + filename + ".h5"`; `mrx/plotting.py:1299`. -/
def savedFile (name : PyStr) : PyStr := savedDir name ++ name ++ ".h5".toList

/-- The digits of `n`, with zeros in front up to the width `w`. -/
def padded (w n : Nat) : PyStr := List.replicate (w - (Nat.toDigits 10 n).length) '0' ++ Nat.toDigits 10 n

/-- `f"{z:06d}"`: the sign counts for the width. -/
def format06 (z : Int) : PyStr := if z < 0 then '-' :: padded 5 z.natAbs else padded 6 z.natAbs

/-- `f"p_iter_{i*CONFIG['save_every']:06d}.pdf"`; `mrx/plotting.py:1346`. -/
def pressureFile (saveEvery : Int) (i : Nat) : PyStr := "p_iter_".toList ++ format06 (i * saveEvery) ++ ".pdf".toList

/-- The map; `mrx/plotting.py:1321-1326`. Simplifications: strings are refused at once (they are used in the constructor of the sequence); for `|delta| > 1` the arcsine is NaN in the code. -/
noncomputable def savedMapOf (c : PyDict (ArgVal ℝ)) : Except String (V3 → V3) :=
  match configNum c "delta", configNum c "kappa", configNum c "eps", configNum c "R_0" with
  | .ok d, .ok k, .ok e, .ok r => .ok (cerfonMap e k (arcsin d) r)
  | _, _, _, _ => .error "TypeError"

/-- The sequence; `mrx/plotting.py:1329-1336`. `dirichlet` is left at its default, `True` (`mrx/derham_sequence.py:57`). -/
noncomputable def savedSequence (c : PyDict (ArgVal ℝ)) (F : V3 → V3) : Except String DeRham :=
  match sizesOf c with
  | .error e => .error e
  | .ok (ns, ps) => DeRham.mk? ns ps (pointsOf ps) (typesOf ns.2.2) F true true

/-- The sequence of the figures, the directory of the figures, and the file name and pressure coefficients of each pressure figure (`none`: NaN). -/
structure SavedFigures where
  D : DeRham
  dir : PyStr
  pressures : List (PyStr × Option (List ℝ))

/-- The figures of the saved pressures; `mrx/plotting.py:1342-1346`. The group `config` is left out of `trace_dict`, everything else in the file is in it (`:1305-1312`). Simplification: `save_every` is
read also if the list is empty. -/
def fieldFigures (c : PyDict (ArgVal ℝ)) (saveB : Bool) (fields : Option (List (List ℝ) × List (Option (List ℝ)))) : Except String (List (PyStr × Option (List ℝ))) :=
  match saveB, fields with
  | true, some (_, ps) =>
    match configInt c "save_every" with
    | .error e => .error e
    | .ok k => .ok ((List.range ps.length).map fun i => (pressureFile k i, ps.getD i none))
  | _, _ => .ok []

/-- `generate_solovev_plots(filename)` up to the pressure figures, `fs` being the files there are; `mrx/plotting.py:1294-1346`. -/
noncomputable def generatePlots (zero : ℝ → Bool) (fs : PyStr → Option RunFile) (name : PyStr) : Except String SavedFigures :=
  match fs (savedFile name) with
  | none => .error "FileNotFoundError"
  | some f =>
    match configTruth zero f.config "save_B", savedMapOf f.config with
    | .error e, _ => .error e
    | _, .error e => .error e
    | .ok saveB, .ok F =>
      match savedSequence f.config F with
      | .error e => .error e
      | .ok D =>
        match fieldFigures f.config saveB f.fields with
        | .error e => .error e
        | .ok figs => .ok ⟨D, savedDir name, ("p_final.pdf".toList, f.pfinal) :: figs⟩

/-- `python solovev_plots.py run_name=...`; `scripts/plotting/solovev_plots.py:5-12`. -/
noncomputable def solovevPlots (zero : ℝ → Bool) (fs : PyStr → Option RunFile) (params : PyDict (ArgVal ℝ)) : Except String SavedFigures :=
  match params.get? "run_name".toList with
  | none => .error "KeyError: 'run_name'"
  | some (.str name) => generatePlots zero fs name
  | some _ => .error "TypeError"

end Mrx
