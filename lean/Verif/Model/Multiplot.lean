import Verif.Model.RunFile
import Mathlib.Data.Finset.Sort

/-!
# The figures of a parameter sweep: `scripts/plotting/force_multiplot.py`

A figure is what is handed to matplotlib: the curves with their colours and line styles, and the entries of the legend. Numbers are exact. A crash keeps the files that were written
before it.
-/

set_option linter.unusedVariables false

namespace Mrx.Multiplot
open Mrx IO

/-- A handle of the legend; numbers are written there by `sci_fmt` (`scripts/plotting/force_multiplot.py:18-20`; the text is not modelled). -/
inductive LegendEntry (α : Type) where
  /-- `"{param}:"`, without a line -/
  | heading (param : PyStr)
  /-- a line in a colour of the colour map -/
  | colour (index : Nat) (value : α)
  /-- a black line with a line style -/
  | style (index : Nat) (value : α)
  /-- `"Fixed params:"` -/
  | fixedHeading
  /-- `"{key} = {val}"` -/
  | fixed (key : PyStr) (value : α)

/-- A call of `semilogy`: `colour` is the index in the table of the colour map, `style` the index in `linestyle_cycle`. -/
structure Curve where
  colour : Nat
  style : Nat
  xs : List ℝ
  ys : List FV

/-- The figure. -/
structure Figure (α : Type) where
  curves : List Curve
  legend : List (LegendEntry α)

section
variable {α : Type} [LinearOrder α]

/-- `[cfg[p] for cfg in cfgs]`. -/
def column (cfgs : List (PyDict α)) (p : PyStr) : Except String (List α) :=
  match cfgs with
  | [] => .ok []
  | c :: rest =>
    match c.get? p, column rest p with
    | none, _ => .error "KeyError"
    | _, .error e => .error e
    | some v, .ok vs => .ok (v :: vs)

/-- `sorted(set(vals))`. -/
def distinct (vals : List α) : List α := vals.toFinset.sort (· ≤ ·)

/-- `plt.cm.plasma(jnp.linspace(0, 1, 1 + k))[i]` for `i ≤ k`: the index in the table of 256 colours; `scripts/plotting/force_multiplot.py:37-39`. -/
def plasmaIndex (k i : Nat) : Nat := min 255 (256 * i / k)

/-- `linestyle_cycle[i % len(linestyle_cycle)]`; `scripts/plotting/force_multiplot.py:40, 59`. -/
def styleIndex (i : Nat) : Nat := i % 5

/-- `style_map[param][v]` for the first parameter; `scripts/plotting/force_multiplot.py:46-47`. -/
def colourOf (vals : List α) (v : α) : Nat := plasmaIndex (distinct vals).length ((distinct vals).idxOf v)

/-- `style_map[param][v]` for the second parameter; `scripts/plotting/force_multiplot.py:57-58`. -/
def styleOf (vals : List α) (v : α) : Nat := styleIndex ((distinct vals).idxOf v)

/-- Legend of the first parameter; `scripts/plotting/force_multiplot.py:48-53`. -/
def colourLegend (p : PyStr) (vals : List α) : List (LegendEntry α) :=
  .heading p :: (distinct vals).map fun v => .colour (colourOf vals v) v

/-- Legend of the second parameter; `scripts/plotting/force_multiplot.py:59-64`. -/
def styleLegend (p : PyStr) (vals : List α) : List (LegendEntry α) :=
  .heading p :: (distinct vals).map fun v => .style (styleOf vals v) v

/-- The lines for the fixed parameters, which must be constant; `scripts/plotting/force_multiplot.py:67-76`. -/
def fixedLegend (cfgs : List (PyDict α)) : List PyStr → Except String (List (LegendEntry α))
  | [] => .ok []
  | key :: rest =>
    match column cfgs key with
    | .error e => .error e
    | .ok vals =>
      match distinct vals with
      | [v] =>
        match fixedLegend cfgs rest with
        | .error e => .error e
        | .ok l => .ok (.fixed key v :: l)
      | _ => .error "ValueError: parameter is not constant across cfgs"

/-- `extra_labels` is `None` or a list of keys; `scripts/plotting/force_multiplot.py:67-68`. -/
def extraLegend (cfgs : List (PyDict α)) : Option (List PyStr) → Except String (List (LegendEntry α))
  | none => .ok []
  | some keys =>
    match fixedLegend cfgs keys with
    | .error e => .error e
    | .ok l => .ok (.fixedHeading :: l)

/-- `for cfg, trace, iter in zip(cfgs, traces, iters)`: one curve each; abscissae and ordinates must be equally many; `scripts/plotting/force_multiplot.py:85-92`. -/
def drawAll (colour style : PyDict α → Option Nat) : List (PyDict α × List FV × List ℝ) → Except String (List Curve)
  | [] => .ok []
  | (cfg, trace, iter) :: rest =>
    match colour cfg, style cfg with
    | some c, some s =>
      if iter.length = trace.length then
        match drawAll colour style rest with
        | .error e => .error e
        | .ok l => .ok (⟨c, s, iter, trace⟩ :: l)
      else .error "ValueError: x and y must have same first dimension"
    | _, _ => .error "KeyError"

/-- `plot_traces`; `scripts/plotting/force_multiplot.py:21-102`. If both parameters are the same, the dictionary of colours is overwritten by that of the line styles, none of which is a
colour. -/
def plotTraces (cfgs : List (PyDict α)) (traces : List (List FV)) (iters : List (List ℝ)) (sweep : List PyStr) (extra : Option (List PyStr)) : Except String (Figure α) :=
  match sweep with
  | [] => .error "IndexError"
  | [p] =>
    match column cfgs p with
    | .error e => .error e
    | .ok ps =>
      match extraLegend cfgs extra with
      | .error e => .error e
      | .ok l =>
        match drawAll (fun c => (c.get? p).map (colourOf ps)) (fun _ => some 0) (cfgs.zip (traces.zip iters)) with
        | .error e => .error e
        | .ok cs => .ok ⟨cs, colourLegend p ps ++ l⟩
  | [p, q] =>
    match column cfgs p, column cfgs q with
    | .error e, _ => .error e
    | _, .error e => .error e
    | .ok ps, .ok qs =>
      match extraLegend cfgs extra with
      | .error e => .error e
      | .ok l =>
        if p = q ∧ cfgs.zip (traces.zip iters) ≠ [] then .error "ValueError: not a valid value for color"
        else
          match drawAll (fun c => (c.get? p).map (colourOf ps)) (fun c => (c.get? q).map (styleOf qs)) (cfgs.zip (traces.zip iters)) with
          | .error e => .error e
          | .ok cs => .ok ⟨cs, colourLegend p ps ++ styleLegend q qs ++ l⟩
  | _ => .error "ValueError: plot_forces only supports up to 2 sweep parameters."

end

/-! ## The script -/

/-- `np.abs(a - b)`. -/
noncomputable def absDiff : FV → FV → FV
  | .fin a, .fin b => .fin |a - b|
  | .posInf, .fin _ => .posInf
  | .negInf, .fin _ => .posInf
  | .fin _, .posInf => .posInf
  | .fin _, .negInf => .posInf
  | .posInf, .negInf => .posInf
  | .negInf, .posInf => .posInf
  | _, _ => .nan

/-- `np.abs(a)`. -/
noncomputable def absFV (a : FV) : FV := absDiff a (.fin 0)

/-- The entries of a configuration as numbers. Simplification: entries that are not finite numbers count as missing. -/
def numbers (c : PyDict Attr) : PyDict ℝ :=
  c.filterMap fun e => match e.2.toFV? with
    | some (.fin x) => some (e.1, x)
    | _ => none

/-- A quantity of interest: the name of the dataset, and whether the change is drawn; `scripts/plotting/force_multiplot.py:119-126`. -/
def quantities : List (String × Bool) :=
  [("force_trace", false), ("helicity_trace", true), ("energy_diff_trace", false), ("picard_errors", false), ("picard_iterations", false), ("timesteps", false)]

/-- `for dt in [1e-6, 1e-5, 1e-4]`: the number and how it is printed; `scripts/plotting/force_multiplot.py:153`. -/
noncomputable def stepSizes : List (ℝ × String) := [(1 / 10 ^ 6, "1e-06"), (1 / 10 ^ 5, "1e-05"), (1 / 10 ^ 4, "0.0001")]

/-- `np.array(trace)`, which needs rows of the same length, and the changes made to it; `scripts/plotting/force_multiplot.py:131-138`. `trace[0]` is the first row. -/
noncomputable def sweepTraces (qoi : String) (diff : Bool) (ts : List (List FV)) : Except String (List (List FV)) :=
  if ts.all (fun t => decide (t.length = (ts.headD []).length)) then
    let ts := if qoi = "energy_diff_trace" then ts.map fun t => t.map absFV else ts
    if diff then
      match ts with
      | [] => .error "IndexError"
      | t0 :: _ => .ok (ts.map fun t => List.zipWith absDiff t t0)
    else .ok ts
  else .error "ValueError: inhomogeneous shape"

/-- `c["save_every"] * np.arange(len(t))`; `scripts/plotting/force_multiplot.py:133`. -/
def sweepIters (t : List FV) (save : Int) : List ℝ := (List.range t.length).map fun k : Nat => (save * k : ℝ)

/-- `cfg["save_every"]`, an integer in what `load_sweep` returns. -/
def saveEvery (c : PyDict Attr) : Int :=
  match c.get? "save_every".toList with
  | some (.int n) => n
  | _ => 0

/-- `[i for i, cfg in enumerate(cfgs) if cfg["dt"] == dt]`; `scripts/plotting/force_multiplot.py:154`. -/
def withStep {β : Type} [DecidableEq ℝ] (dt : ℝ) : List (PyDict ℝ × β) → Except String (List (PyDict ℝ × β))
  | [] => .ok []
  | (c, b) :: rest =>
    match c.get? "dt".toList, withStep dt rest with
    | none, _ => .error "KeyError: 'dt'"
    | _, .error e => .error e
    | some v, .ok l => .ok (if v = dt then (c, b) :: l else l)

/-- The file of a figure; `scripts/plotting/force_multiplot.py:109-110, 162`. -/
def figureFile (qoi dt : String) : PyStr := ("script_outputs/solovev/ITER_sweep_1/iter_sweep/multiplot_" ++ qoi ++ "_dt_" ++ dt ++ ".png").toList

/-- Results until the first error. -/
def untilError {β : Type} : List (Except String β) → List β × Option String
  | [] => ([], none)
  | .error e :: _ => ([], some e)
  | .ok b :: rest => (b :: (untilError rest).1, (untilError rest).2)

open Classical in
/-- One figure: the runs with the step size `dt`, coloured by `n_r` and styled by `dt_max`; `scripts/plotting/force_multiplot.py:152-163`. -/
noncomputable def stepFigure (qoi : String) (runs : List (PyDict ℝ × List FV × List ℝ)) (dt : ℝ × String) : Except String (PyStr × Figure ℝ) :=
  match withStep dt.1 runs with
  | .error e => .error e
  | .ok rs =>
    match plotTraces (rs.map (·.1)) (rs.map (·.2.1)) (rs.map (·.2.2)) ["n_r".toList, "dt_max".toList] (some ["dt".toList]) with
    | .error e => .error e
    | .ok fig => .ok (figureFile qoi dt.2, fig)

/-- The figures of one quantity; `scripts/plotting/force_multiplot.py:128-163`. `dir` are the files of the directory. -/
noncomputable def quantityFigures (ref : PyDict Attr) (dir : List (PyStr × Option H5File)) (q : String × Bool) : List (Except String (PyStr × Figure ℝ)) :=
  match loadSweep ref q.1.toList ["dt_max".toList, "n_r".toList, "n_chi".toList, "dt".toList] dir with
  | .error e => [.error e]
  | .ok runs =>
    match sweepTraces q.1 q.2 (runs.map (·.force)) with
    | .error e => [.error e]
    | .ok ts => stepSizes.map (stepFigure q.1 ((runs.zip ts).map fun e => (numbers e.1.cfg, e.2, sweepIters e.2 (saveEvery e.1.cfg))))

/-- `python force_multiplot.py`: the files it writes, and the error with which it ends; `ref` is the configuration in the reference file; `scripts/plotting/force_multiplot.py:108-163`. -/
noncomputable def forceMultiplot (ref : PyDict Attr) (dir : List (PyStr × Option H5File)) : List (PyStr × Figure ℝ) × Option String :=
  untilError (quantities.flatMap (quantityFigures ref dir))

/-- An attribute of the group `config` as h5py reads it; `mrx/utils.py:437-446`. -/
noncomputable def attrOf : ArgVal ℝ → Attr
  | .int n => .int n
  | .bool b => .int (if b then 1 else 0)
  | .float x => .num (.fin x)
  | .str s => .str s

/-- The file of a run as `load_sweep` sees it. -/
noncomputable def asH5 (f : RunFile) : H5File := ⟨f.traces, some (f.config.map fun e => (e.1, attrOf e.2))⟩

end Mrx.Multiplot
