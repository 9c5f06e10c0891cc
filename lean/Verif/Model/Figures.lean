import Verif.Model.Plotting
import Verif.Model.IO
import Verif.Model.Forms

/-!
# The figures of `mrx/plotting.py`: which data are drawn

A figure is the data handed to matplotlib: lines (abscissas and ordinates), coloured surfaces (vertices and colour values), filled contours
(vertices and values), axis limits and file names. Rendering, styles, ticks and legends are not modelled.
-/

namespace Mrx

/-- `-a`. -/
def FV.neg : FV → FV
  | nan => nan
  | posInf => negInf
  | negInf => posInf
  | fin a => fin (-a)

/-- `a - b`. -/
def FV.sub (a b : FV) : FV := FV.add a b.neg

/-- `jnp.abs(a)`. -/
noncomputable def FV.abs : FV → FV
  | nan => nan
  | posInf => posInf
  | negInf => posInf
  | fin a => fin |a|

namespace Figures
open IO

/-- One call `ax.plot(xs, ys)`. -/
structure Line where
  xs : List FV
  ys : List FV

/-- A figure of lines written to a file: the lines on the main axes and those on the second (top) axes. -/
structure Figure where
  file : PyStr
  main : List Line
  top : List Line

/-- How a plotting call can fail. -/
inductive PlotErr where
  /-- `trace_dict[k]` with a missing key. -/
  | keyError
  /-- `a[0]` of an empty array, or `zeta_vals[i]` past the end. -/
  | indexError
  /-- `ax.plot(x, y)` with arrays of different lengths, an unknown plane, or no subplot. -/
  | valueError
  /-- An attribute that is missing, `Axes.flatten`. -/
  | attributeError
  deriving DecidableEq

/-- `ax.plot(xs, ys)`: matplotlib requires equal lengths. -/
def plot (xs ys : List FV) : Except PlotErr Line := if xs.length = ys.length then .ok ⟨xs, ys⟩ else .error .valueError

/-- `a[0]`. -/
def first (a : List FV) : Except PlotErr FV :=
  match a with
  | [] => .error .indexError
  | x :: _ => .ok x

/-- `trace_dict[k]`. -/
def item (d : PyDict (List FV)) (k : String) : Except PlotErr (List FV) :=
  match d.get? k.toList with
  | none => .error .keyError
  | some v => .ok v

/-- `filename[:-1]` if it ends with a slash; `mrx/plotting.py:1270-1271`. -/
def dropSlash (filename : PyStr) : PyStr := if filename.getLast? = some '/' then filename.dropLast else filename

/-- The energy figure: `energy_trace[0] - energy_trace` against the index; `mrx/plotting.py:1217-1232`. -/
def energyFigure (filename : PyStr) (E : List FV) : Except PlotErr Figure :=
  match first E with
  | .error e => .error e
  | .ok e0 => .ok ⟨filename ++ "energy_trace.pdf".toList, [⟨(List.range E.length).map fun (i : Nat) => .fin i, E.map fun e => e0.sub e⟩], []⟩

/-- The force figure; `mrx/plotting.py:1234-1272`. -/
noncomputable def forceFigure (filename : PyStr) (iterations force helicity divergence velocity wallTime : List FV) : Except PlotErr Figure :=
  match first helicity with
  | .error e => .error e
  | .ok h0 =>
  match plot iterations force with
  | .error e => .error e
  | .ok l1 =>
  match plot iterations velocity with
  | .error e => .error e
  | .ok l2 =>
  match plot iterations (helicity.map fun h => (h.sub h0).abs) with
  | .error e => .error e
  | .ok l3 =>
  match first divergence with
  | .error e => .error e
  | .ok d0 =>
  match plot wallTime (divergence.map fun d => d.sub d0) with
  | .error e => .error e
  | .ok l4 => .ok ⟨dropSlash filename ++ "/force_trace.pdf".toList, [l1, l2, l3], [l4]⟩

/-- `trace_plot`: the figures saved and the error that ends the call, if any; `mrx/plotting.py:1172-1272`. An entry `energy_trace`
that is `None` is a missing entry here. -/
noncomputable def tracePlot (d : PyDict (List FV)) (filename : PyStr) : List Figure × Option PlotErr :=
  match item d "iterations", item d "force_trace", item d "helicity_trace", item d "divergence_trace", item d "velocity_trace", item d "wall_time_trace" with
  | .ok it, .ok f, .ok h, .ok dv, .ok v, .ok w =>
    match d.get? "energy_trace".toList with
    | none =>
      match forceFigure filename it f h dv v w with
      | .ok fig => ([fig], none)
      | .error e => ([], some e)
    | some E =>
      match energyFigure filename E with
      | .error e => ([], some e)
      | .ok fig1 =>
        match forceFigure filename it f h dv v w with
        | .ok fig => ([fig1, fig], none)
        | .error e => ([fig1], some e)
  | _, _, _, _, _, _ => ([], some .keyError)

/-! ## Surfaces and contours -/

/-- Entry `(i, j)` of `jax.vmap(p_h)(grid[0]).reshape(grid[2][0].shape)`; `n2` is the second extent of that shape;
`mrx/plotting.py:389-391, 544, 643`. -/
def gridValues (p : V3 → ℝ) (grid : Grid) (n2 i j : Nat) : Option ℝ := reshape2 (grid.x.map p) n2 i j

/-- The smallest entry of a list (`0` for the empty list, where the code raises). -/
noncomputable def minOf (l : List ℝ) : ℝ := l.foldr min (l.headD 0)

/-- The largest entry of a list. -/
noncomputable def maxOf (l : List ℝ) : ℝ := l.foldr max (l.headD 0)

/-- The number looked up in the colour map by `plot_torus` for a vertex with value `v`, when the values on all the cuts together are
`vals`; `mrx/plotting.py:542-573`. -/
noncomputable def torusColour (vals : List (List ℝ)) (v : ℝ) : ℝ :=
  let lo := minOf vals.flatten
  let hi := if maxOf vals.flatten = lo then lo + 1e-12 else maxOf vals.flatten
  (v - lo) / (hi - lo)

/-- The number looked up in the colour map by `plot_crossections` for a vertex with value `v` on a cut with the values `vals`; `none` is
NaN (`0 / 0`); `mrx/plotting.py:642-647`. -/
noncomputable def crossectionColour (vals : List ℝ) (v : ℝ) : Option ℝ :=
  if maxOf vals - minOf vals = 0 then none else some ((v - minOf vals) / (maxOf vals - minOf vals))

/-- `(R, z)` of a vertex in `plot_crossections_separate`; `mrx/plotting.py:389-390`. -/
noncomputable def poloidal (y : V3) : ℝ × ℝ := (√(y 0 ^ 2 + y 1 ^ 2), y 2)

/-- What `plot_crossections_separate` draws: for each cut its vertices `(R, z)`, the values there and the label, and the common axis
limits. -/
structure Sections where
  panels : List (List (ℝ × ℝ) × List ℝ × ℝ)
  xlim : ℝ × ℝ
  ylim : ℝ × ℝ

/-- `zeta_vals[i]` for every panel. -/
def labels (n : Nat) (zetas : List ℝ) : Except PlotErr (List ℝ) := if n ≤ zetas.length then .ok (zetas.take n) else .error .indexError

/-- `plot_crossections_separate`; `mrx/plotting.py:354-503`: `plt.subplots(1, n)` raises for `n = 0` and returns a single `Axes`, which has
no `flatten`, for `n = 1`. -/
noncomputable def crossectionsSeparate (p : V3 → ℝ) (grids : List Grid) (zetas : List ℝ) : Except PlotErr Sections :=
  if grids.length = 0 then .error .valueError
  else if grids.length = 1 then .error .attributeError
  else
    match labels grids.length zetas with
    | .error e => .error e
    | .ok z =>
      let R := fun g : Grid => g.y.map fun y => (poloidal y).1
      let Z := fun g : Grid => g.y.map fun y => (poloidal y).2
      .ok { panels := List.zipWith (fun (g : Grid) l => (g.y.map poloidal, g.x.map p, l)) grids z
            xlim := (minOf (grids.map fun g => minOf (R g)), maxOf (grids.map fun g => maxOf (R g)))
            ylim := (minOf (grids.map fun g => minOf (Z g)), maxOf (grids.map fun g => maxOf (Z g))) }

/-- The dashed outline of `pressure_plot`: `(_s[:, 0], _s[:, 2])`; `mrx/plotting.py:951-952, 957`. -/
noncomputable def pressureOutline (F : V3 → V3) : List (ℝ × ℝ) :=
  (linspace 0 1 256).map fun t => (F ![1, t, 0] 0, F ![1, t, 0] 2)

/-- The grid of `pressure_plot`: only `nx` and `tol1` are passed on, the cut is at the third coordinate; `mrx/plotting.py:960-961`. -/
noncomputable def pressureGrid (F : V3 → V3) (zeta : ℝ) (resolution : Nat) (tol : ℝ) : Grid :=
  get2dGrids F zeta 2 { nx := resolution, tol1 := tol }

/-- Entry `(i, j)` of the contour data `(_y1, _y3, Z)` of `pressure_plot`; the pushforward of a 0-form is the 0-form;
`mrx/plotting.py:948-949, 960-964`. -/
noncomputable def pressureContour (p : V3 → ℝ) (F : V3 → V3) (zeta : ℝ) (resolution : Nat) (tol : ℝ) (i j : Nat) : Option (ℝ × ℝ × ℝ) :=
  match (pressureGrid F zeta resolution tol).Y i j 0, gridValues p (pressureGrid F zeta resolution tol) 64 i j with
  | some y, some v => some (y 0, y 2, v)
  | _, _ => none

/-! ## `plot_scalar_fct_physical_logical` -/

/-- The three planes. -/
inductive Plane where
  | rTheta
  | rZeta
  | thetaZeta
  deriving DecidableEq

/-- The plane a lower-case name selects; `mrx/plotting.py:1063, 1074, 1085, 1096-1098`. -/
def planeOf (name : String) : Except PlotErr Plane :=
  if name ∈ ["r_theta", "rθ", "r_θ", "rtheta", "rt", "r_t"] then .ok .rTheta
  else if name ∈ ["r_zeta", "r_ζ", "r_z", "rzeta", "rz", "rζ"] then .ok .rZeta
  else if name ∈ ["theta_zeta", "θ_ζ", "theta_z", "thetazeta", "tz", "t_z", "θζ"] then .ok .thetaZeta
  else .error .valueError

/-- Whether the physical panel is drawn; `mrx/plotting.py:1108`. -/
def physicalPanel (name : String) : Bool := decide (name ∈ ["r_theta", "rθ", "r_x_theta"])

/-- The logical point at index `(i, j)` of the plane, `n` points per axis (`indexing="ij"`); `mrx/plotting.py:1063-1094`. -/
noncomputable def planePoint (pl : Plane) (n : Nat) (fixedR fixedTheta fixedZeta : ℝ) (i j : Nat) : V3 :=
  let t := fun k => (linspace 0 1 n).getD k 0
  match pl with
  | .rTheta => ![t i, t j, fixedZeta]
  | .rZeta => ![t i, fixedTheta, t j]
  | .thetaZeta => ![fixedR, t i, t j]

/-- The flattened list `_x_hat`: the first index is the slowest. -/
noncomputable def planePoints (pl : Plane) (n : Nat) (fixedR fixedTheta fixedZeta : ℝ) : List V3 :=
  (List.range n).flatMap fun i => (List.range n).map fun j => planePoint pl n fixedR fixedTheta fixedZeta i j

/-- Index `(i, j)` of a contour of `plot_scalar_fct_physical_logical`: abscissa, ordinate, value. -/
abbrev Contour := Nat → Nat → Option (ℝ × ℝ × ℝ)

/-- The logical coordinates on the axes of the logical panel; `mrx/plotting.py:1070-1072, 1081-1083, 1092-1094`. -/
def planeAxes (pl : Plane) (x : V3) : ℝ × ℝ :=
  match pl with
  | .rTheta => (x 0, x 1)
  | .rZeta => (x 0, x 2)
  | .thetaZeta => (x 1, x 2)

/-- `plot_scalar_fct_physical_logical` with the lower-case plane name `name`: the physical panel, if drawn, and the logical panel;
`mrx/plotting.py:989-1168`. -/
noncomputable def plotScalar (p : V3 → ℝ) (Phi : V3 → V3) (n : Nat) (scale : ℝ) (name : String) (fixedR fixedTheta fixedZeta : ℝ) :
    Except PlotErr (Option Contour × Contour) :=
  match planeOf name with
  | .error e => .error e
  | .ok pl =>
    let x := planePoints pl n fixedR fixedTheta fixedZeta
    let phys : Contour := fun i j =>
      match reshape2 (x.map Phi) n i j, reshape2 (x.map p) n i j with
      | some y, some v => some (y 0, y 2, v * scale)
      | _, _ => none
    let log : Contour := fun i j =>
      match reshape2 x n i j, reshape2 (x.map p) n i j with
      | some y, some v => some ((planeAxes pl y).1, (planeAxes pl y).2, v * scale)
      | _, _ => none
    .ok (if physicalPanel name = true then some phys else none, log)

/-! ## `plot_twin_axis` -/

/-- The abscissas of one side: given, or the indices times `int(num_iters_inner)`; `mrx/plotting.py:1530-1538`. -/
def twinX (x : Option (List FV)) (inner : Int) (ys : List FV) : List FV :=
  match x with
  | some l => l
  | none => (List.range ys.length).map fun (i : Nat) => .fin ((i : ℝ) * inner)

/-- `plot_twin_axis`: the two lines; `mrx/plotting.py:1419-1587`. -/
def plotTwinAxis (left right : List FV) (xl xr : Option (List FV)) (inner : Int) : Except PlotErr (Line × Line) :=
  match plot (twinX xl inner left) left with
  | .error e => .error e
  | .ok l =>
    match plot (twinX xr inner right) right with
    | .error e => .error e
    | .ok r => .ok (l, r)

/-- `{**base, **kwargs}`: the style of a line; `mrx/plotting.py:1540-1561`. -/
def mergeStyle {α : Type} (base kwargs : PyDict α) : PyDict α := PyDict.update base kwargs

/-! ## `converge_plot` -/

/-- `markers[j]` of `converge_plot`: the base markers repeat; `mrx/plotting.py:63`. -/
def markerIndex (nBase j : Nat) : Nat := j % nBase

/-- The main traces of `converge_plot`: one per `(p, q)`, with its ordinates `err[:, j, k]`, its marker and its colour index;
`mrx/plotting.py:67-78`. -/
def convergeTraces (nBase nNs nPs nQs : Nat) (err : Nat → Nat → Nat → ℝ) : List (List ℝ × Nat × Nat) :=
  (List.range nPs).flatMap fun j => (List.range nQs).map fun k => ((List.range nNs).map fun i => err i j k, markerIndex nBase j, k)

end Figures
end Mrx
