import Verif.Model.PlotScripts
import Verif.Model.Projectors

/-!
# The figure and the numbers of one run: `scripts/plotting/solovev_single_plot.py`

Numbers are exact. The pictures of the pressure (`:177-192`) are not part of this file: they use functions of `mrx/plotting.py` (`Model/Plotting.lean`, `Model/Figures.lean`).
-/

set_option linter.unusedVariables false

namespace Mrx.SinglePlot
open Mrx Real IO Matrix

/-- `name`; `scripts/plotting/solovev_single_plot.py:14`. -/
def runName : PyStr := "helix/helix_qstar_3.0_m_2_h_0.05_16x16x8".toList

/-- The file that is read; `scripts/plotting/solovev_single_plot.py:15`. -/
def inputFile : PyStr := "script_outputs/".toList ++ runName ++ ".h5".toList

/-- The file of the figure; `scripts/plotting/solovev_single_plot.py:138`. -/
def figureFile : PyStr := joinPath "script_outputs".toList (runName ++ "_trace_plot.pdf".toList)

/-- The datasets with traces, in the order in which they are read; `scripts/plotting/solovev_single_plot.py:22-34`. (The others, `B_final`, `p_final` and the timings, are in every file.) -/
def datasets : List String :=
  ["iterations", "force_trace", "velocity_trace", "helicity_trace", "energy_trace", "divergence_B_trace", "picard_iterations", "picard_errors", "timesteps", "wall_time_trace"]

/-- `f[k][:]` for these names: h5py raises `KeyError` at the first one there is not. -/
def readAll (d : PyDict (List FV)) : List String → Option String
  | [] => none
  | k :: rest => if (d.get? k.toList).isNone then some ("KeyError: " ++ k) else readAll d rest

/-- A dataset that is there. -/
def trace (f : RunFile) (k : String) : List FV := (f.traces.get? k.toList).getD []

/-- The numbers of a trace, if all of them are finite. -/
def finite : List FV → Option (List ℝ)
  | [] => some []
  | .fin x :: rest => (finite rest).map (x :: ·)
  | _ :: _ => none

/-- The figure that is saved: three curves over the iterations, drawn in both panels; limits of the panels as they are handed to `set_ylim`; ticks and their labels. -/
structure Figure where
  file : PyStr
  xs : List ℝ
  force : List ℝ
  helicity : List ℝ
  divergence : List ℝ
  top : ℝ × ℝ
  bottom : ℝ × ℝ
  ticks : List ℝ
  labels : List ℤ

/-- `jnp.max(a)`, of a nonempty list. -/
noncomputable def maxOf : List ℝ → ℝ
  | [] => 0
  | [x] => x
  | x :: y :: rest => max x (maxOf (y :: rest))

/-- `jnp.min(a)`, of a nonempty list. -/
noncomputable def minOf : List ℝ → ℝ
  | [] => 0
  | [x] => x
  | x :: y :: rest => min x (minOf (y :: rest))

/-- `jnp.abs(jnp.array(a - a[0]))`; `scripts/plotting/solovev_single_plot.py:83-84`. -/
noncomputable def change (a : List ℝ) : List ℝ := a.map fun x => |x - a.headD 0|

/-- `jnp.arange(0, jnp.max(iterations) + 1, 5000)`; `scripts/plotting/solovev_single_plot.py:80`. -/
noncomputable def ticks (m : ℝ) : List ℝ := (List.range ⌈(m + 1) / 5000⌉.toNat).map fun k : Nat => (k : ℝ) * 5000

/-- `x.astype(int)`: towards zero. -/
noncomputable def toInt (x : ℝ) : ℤ := if 0 ≤ x then ⌊x⌋ else ⌈x⌉

/-- The figure of the four lists that are drawn; `scripts/plotting/solovev_single_plot.py:80-138`. All lists must be equally long; empty ones have no maximum. The list of step sizes (`:86`) is not
drawn; `dt` is read for it. -/
noncomputable def figure (it force hel div : List ℝ) : Except String Figure :=
  if it = [] then .error "ValueError: zero-size array to reduction operation max which has no identity"
  else if hel = [] ∨ div = [] then .error "IndexError"
  else if force = [] then .error "ValueError: zero-size array to reduction operation min which has no identity"
  else if force.length ≠ it.length ∨ hel.length ≠ it.length ∨ div.length ≠ it.length then .error "ValueError: x and y must have same first dimension"
  else .ok {
    file := figureFile
    xs := it
    force := force
    helicity := change hel
    divergence := change div
    top := (0.9 * minOf force, 1.5 * maxOf force)
    bottom := (1e-16, 2 * max (maxOf (change hel)) (maxOf div))
    ticks := ticks (maxOf it)
    labels := (ticks (maxOf it)).map fun x => toInt (x / 1000) }

/-- The same from the file. Simplification: numbers that are not finite are refused in all four lists; matplotlib refuses them as limits of the axes. -/
noncomputable def figureOf (f : RunFile) : Except String Figure :=
  match configNum f.config "dt" with
  | .error e => .error e
  | .ok _ =>
    match finite (trace f "iterations"), finite (trace f "force_trace"), finite (trace f "helicity_trace"), finite (trace f "divergence_B_trace") with
    | some it, some force, some hel, some div => figure it force hel div
    | _, _, _, _ => .error "ValueError: Axis limits cannot be NaN or Inf"

/-- `p_avg = p_hat @ Seq.P0(lambda x: jnp.ones(1)) / (Seq.J_j @ Seq.Q.w)`; `scripts/plotting/solovev_single_plot.py:194-195`. -/
noncomputable def meanPressure (D : DeRham) (p : Fin D.m0 → ℝ) : ℝ :=
  p ⬝ᵥ D.projector0 (fun _ _ => 1) / ∑ j ∈ Finset.range D.S.Q.w.length, D.g.J j * D.S.Q.w.getD j 0

/-- `beta = p_avg / energy_trace[-1]`; `scripts/plotting/solovev_single_plot.py:199`. -/
noncomputable def beta (pAvg : ℝ) (energy : List FV) : Except String FV :=
  match energy.getLast? with
  | none => .error "IndexError"
  | some e => .ok (FV.div (.fin pAvg) e)

/-- The numbers that are printed: mean pressure and beta, NaN (`none`) if the pressure is; `scripts/plotting/solovev_single_plot.py:142-143, 194-200`. The names `B_fields` and `p_fields` exist
only if `save_B` holds. -/
noncomputable def numbersOf (f : RunFile) (saved : Bool) (D : DeRham) : Except String (Option (ℝ × FV)) :=
  match saved, f.fields with
  | false, _ => .error "NameError: name 'B_fields' is not defined"
  | true, none => .error "KeyError: p_fields"
  | true, some (Bs, ps) =>
    match Bs.getLast?, ps.getLast? with
    | none, _ => .error "IndexError"
    | _, none => .error "IndexError"
    | some _, some none => .ok none
    | some _, some (some p) =>
      if h : p.length = D.m0 then
        match beta (meanPressure D fun i => p.get (i.cast h.symm)) (trace f "energy_trace") with
        | .error e => .error e
        | .ok b => .ok (some (meanPressure D fun i => p.get (i.cast h.symm), b))
      else .error "TypeError: incompatible shapes for dot"

/-- Everything before the figure: the file, `save_B`, and the sequence; `scripts/plotting/solovev_single_plot.py:14-63`. The dataset `p_fields` is read before the map is built. -/
noncomputable def load (zero : ℝ → Bool) (fs : PyStr → Option RunFile) : Except String (RunFile × Bool × DeRham) :=
  match fs inputFile with
  | none => .error "FileNotFoundError"
  | some f =>
    match readAll f.traces datasets, configTruth zero f.config "save_B" with
    | some e, _ => .error e
    | none, .error e => .error e
    | none, .ok saved =>
      if saved = true ∧ f.fields = none then .error "KeyError: p_fields"
      else
        match plotMapOf f.config with
        | .error e => .error e
        | .ok F =>
          match buildRun f.config F with
          | .error e => .error e
          | .ok D => .ok (f, saved, D)

/-- The script: the figure, if it is saved, and the numbers it prints, or the error that ends it; `scripts/plotting/solovev_single_plot.py:1-203`. -/
noncomputable def singlePlot (zero : ℝ → Bool) (fs : PyStr → Option RunFile) : Option Figure × Except String (Option (ℝ × FV)) :=
  match load zero fs with
  | .error e => (none, .error e)
  | .ok (f, saved, D) =>
    match figureOf f with
    | .error e => (none, .error e)
    | .ok fig => (some fig, numbersOf f saved D)

end Mrx.SinglePlot
