import Verif.Model.Iota
import Verif.Model.Figures
import Mathlib.Data.List.Sort

/-!
# The Poincaré sections of the plotting scripts: seeds, crossings and the two panels

`scripts/plotting/iter_plots.py:94-138, 150-181, 231-324`, and the same parts of `stell_plots.py`, `helix_plots.py` and `solovev_poincare.py`, which differ in the constants collected in
`Style` and `SeedPlan`.

The integration up to the next crossing by diffrax is a parameter. Colour maps are lists of 256 colours: a colour is a position in that list. Exact real arithmetic; rendering, ticks, labels
and colour bars are not modelled.
-/

set_option linter.unusedVariables false

namespace Mrx
namespace Panels
open Figures

/-! ## Seeds -/

/-- The constants of the seeds of one script: number of lines, poloidal angles and toroidal angle. -/
structure SeedPlan where
  lines : Nat
  thetas : List ℝ
  zeta : ℝ

/-- `scripts/plotting/iter_plots.py:152-172`, `stell_plots.py:141-160`. -/
noncomputable def iterPlan : SeedPlan := ⟨90, [0, 0.5], 0⟩

/-- `scripts/plotting/solovev_poincare.py:150-161`. -/
noncomputable def solovevPlan : SeedPlan := ⟨90, [0.33, 0.66, 0.99], 0⟩

/-- `scripts/plotting/helix_plots.py:152-173`. -/
noncomputable def helixPlan : SeedPlan := ⟨100, [0.027345, 0.246452, 0.515341, 0.749154], 0.174⟩

/-- The slice `a[i::s]`. -/
def slice (i s : Nat) (a : List ℝ) : List ℝ :=
  ((List.range a.length).filter fun k => decide (i ≤ k) && (k - i) % s == 0).map fun k => a.getD k 0

/-- `x0s`; `scripts/plotting/iter_plots.py:153-172`: the slices of the radii side by side, the angles in equal blocks, and `np.vstack`, which needs rows of equal length. -/
noncomputable def seeds (P : SeedPlan) : Except String (List V3) :=
  let s := P.thetas.length
  let rs := (List.range s).flatMap fun i => slice i s (linspace 0.01 0.99 P.lines)
  let ts := P.thetas.flatMap fun t => List.replicate (P.lines / s) t
  let zs := List.replicate P.lines P.zeta
  if rs.length = ts.length ∧ ts.length = zs.length then
    .ok (List.zipWith (fun (rt : ℝ × ℝ) z => ![rt.1, rt.2, z]) (List.zip rs ts) zs)
  else .error "ValueError: all the input array dimensions except for the concatenation axis must match exactly"

/-- `key`; `scripts/plotting/iter_plots.py:175`. -/
noncomputable def sortKey (x : V3) : ℝ := x 0 * Real.cos (x 1)

/-- `x0s[np.argsort(key)]`; `scripts/plotting/iter_plots.py:175-181`. The order of equal keys is not fixed by numpy: `l'` is one of the possible results. -/
def IsSortedSeeds (l l' : List V3) : Prop := l'.Perm l ∧ l'.Pairwise fun x y => sortKey x ≤ sortKey y

/-! ## Crossings -/

/-- `get_crossings` with `N` crossings; `scripts/plotting/iter_plots.py:94-138`. `solve x0` is `sol.ys[0]` of the integration that starts at `x0` (with `throw=False`: also where no event was
found; the array has one row always, so that the `break` is not reached). `lo` is the lower clipping bound of the radius. -/
noncomputable def getCrossings (solve : V3 → V3) (lo : ℝ) (F B : V3 → V3) : Nat → V3 → List V3
  | 0, _ => []
  | N + 1, x0 =>
    let c := solve x0
    c :: getCrossings solve lo F B N (c + (1e-3 : ℝ) • crossingField lo F B c)

/-! ## Colours -/

/-- `Normalize(vmin, vmax)(v)`, library function (`matplotlib.colors.Normalize.__call__`). -/
noncomputable def normalise (vmin vmax v : ℝ) : Except String ℝ :=
  if vmin = vmax then .ok 0
  else if vmax < vmin then .error "ValueError: minvalue must be less than or equal to maxvalue"
  else .ok ((v - vmin) / (vmax - vmin))

/-- The place in a colour map of 256 entries, library function (`Colormap.__call__` of a float): values below zero get the first colour, values from one on the last. With `clip=True` in
`Normalize` the result is the same. -/
noncomputable def cmapIndex (x : ℝ) : Nat := min 255 ⌊x * 256⌋₊

/-- `cmap(norm(v))`. -/
noncomputable def colour (vmin vmax v : ℝ) : Except String Nat := (normalise vmin vmax v).map cmapIndex

/-- `truncate_colormap(name, minval, maxval, reverse=...)` with `n = 256`: for each place of the new colour map, the place of its colour in the original one, which has 256 colours (as `turbo` and
`plasma` do; `get_cmap(name, 256)` returns these); `scripts/plotting/iter_plots.py:267-272`, `stell_plots.py:256-261`, `helix_plots.py:236-241`, `solovev_poincare.py:257-262`. -/
noncomputable def truncateColormap (minval maxval : ℝ) (reverse : Bool) : List Nat :=
  if reverse then ((Mrx.linspace minval maxval 256).map cmapIndex).reverse else (Mrx.linspace minval maxval 256).map cmapIndex

/-- `cmap_iota`, places in `turbo`; `scripts/plotting/iter_plots.py:275`, `stell_plots.py:264`, `solovev_poincare.py:265`. -/
noncomputable def cmapIota : List Nat := truncateColormap 0.0 0.85 false

/-- `cmap_p`, places in `plasma`; `scripts/plotting/iter_plots.py:276`, `stell_plots.py:265`, `helix_plots.py:244`, `solovev_poincare.py:266`. -/
noncomputable def cmapP : List Nat := truncateColormap 0.0 0.9 false

/-- `np.percentile(l, q)` for `l ≠ []`, library function with the default linear interpolation between the two neighbours in the sorted list; `q` in percent. -/
noncomputable def percentile (l : List ℝ) (q : ℝ) : ℝ :=
  let a := l.insertionSort (· ≤ ·)
  let t := q / 100 * ((l.length : ℝ) - 1)
  let i := ⌊t⌋₊
  let j := min (i + 1) (l.length - 1)
  a.getD i 0 + (t - i) * (a.getD j 0 - a.getD i 0)

/-! ## The figure -/

/-- How the right panel is coloured. -/
inductive RightColour where
  /-- `Normalize(min, max)` of the rotational transforms; `scripts/plotting/iter_plots.py:279-280, 311`. -/
  | iotaRange
  /-- `Normalize` of their 5th and 95th percentile; `scripts/plotting/stell_plots.py:268-269`. -/
  | iotaPercentile
  /-- The pressure; `scripts/plotting/helix_plots.py:279`. -/
  | pressure
  deriving DecidableEq

/-- The constants in which the scripts differ. -/
structure Style where
  /-- The factor of the pressure. -/
  scale : ℝ
  /-- Lines whose least logical radius is at most this are not drawn. -/
  skip : Option ℝ
  right : RightColour

/-- `scripts/plotting/iter_plots.py:279-285`. -/
noncomputable def iterStyle : Style := ⟨100, none, .iotaRange⟩
/-- `scripts/plotting/stell_plots.py:268-274, 285-286`. -/
noncomputable def stellStyle : Style := ⟨100, some 1e-9, .iotaPercentile⟩
/-- `scripts/plotting/helix_plots.py:247-249, 262-263, 279`. -/
noncomputable def helixStyle : Style := ⟨100, some 1e-12, .pressure⟩
/-- `scripts/plotting/solovev_poincare.py:269-274`. -/
noncomputable def solovevStyle : Style := ⟨1, none, .iotaRange⟩

/-- One field line: its crossings in logical coordinates, and its rotational transform. -/
structure FieldLine where
  crossings : List V3
  iota : ℝ

/-- One dot: abscissa, ordinate and colour. -/
structure Dot where
  x : ℝ
  z : ℝ
  colour : Nat

/-- The data of one figure. -/
structure Figure where
  left : List Dot
  right : List Dot
  /-- Limits of the abscissa of the left and the right panel, and of the common ordinate. -/
  xLeft : ℝ × ℝ
  xRight : ℝ × ℝ
  y : ℝ × ℝ
  /-- The values at the ends of the pressure colours and of the colours of the rotational transform. -/
  pBar : ℝ × ℝ
  iotaBar : Option (ℝ × ℝ)

/-- A loop over a list whose body may raise. -/
def each {α β : Type} (f : α → Except String β) : List α → Except String (List β)
  | [] => .ok []
  | a :: l => match f a with
    | .error e => .error e
    | .ok b => match each f l with
      | .error e => .error e
      | .ok bs => .ok (b :: bs)

/-- `crossings % 1`; `scripts/plotting/iter_plots.py:240`. -/
noncomputable def wrap (c : V3) : V3 := fun j => Int.fract (c j)

/-- A row of `crossings_to_plot`; `scripts/plotting/iter_plots.py:236-239`. -/
noncomputable def plotPoint (F : V3 → V3) (c : V3) : V3 := cylSigned (F c)

/-- `all_R_values`; `scripts/plotting/iter_plots.py:248`. -/
noncomputable def allR (F : V3 → V3) (ls : List FieldLine) : List ℝ := ls.flatMap fun l => l.crossings.map fun c => plotPoint F c 0

/-- `crossings_to_plot[:, :, 2]`; `scripts/plotting/iter_plots.py:257-258`. -/
noncomputable def allZ (F : V3 → V3) (ls : List FieldLine) : List ℝ := ls.flatMap fun l => l.crossings.map fun c => plotPoint F c 2

/-- `p_values`; `scripts/plotting/iter_plots.py:283-284`. -/
noncomputable def pValue (st : Style) (p : V3 → ℝ) (c : V3) : ℝ := st.scale * p (wrap c)

/-- All of them. -/
noncomputable def allP (st : Style) (p : V3 → ℝ) (ls : List FieldLine) : List ℝ := ls.flatMap fun l => l.crossings.map (pValue st p)

open Classical in
/-- `gap_left`; `scripts/plotting/iter_plots.py:250-252`. -/
noncomputable def gapLeft (R : List ℝ) : ℝ :=
  let neg := R.filter (· < 0)
  if neg ≠ [] then 0.95 * maxOf neg else -0.1

open Classical in
/-- `gap_right`; `scripts/plotting/iter_plots.py:249, 253`. -/
noncomputable def gapRight (R : List ℝ) : ℝ :=
  let pos := R.filter (0 < ·)
  if pos ≠ [] then 0.95 * minOf pos else 0.1

/-- `max_x_span`; `scripts/plotting/iter_plots.py:255-263`. -/
noncomputable def span (R : List ℝ) : ℝ := max (gapLeft R - (-0.01 + minOf R)) (0.01 + maxOf R - gapRight R)

open Classical in
/-- Whether a line is drawn; `scripts/plotting/stell_plots.py:285-286`, `helix_plots.py:262-263`. -/
noncomputable def drawn (st : Style) (l : FieldLine) : Bool :=
  match st.skip with
  | none => true
  | some t => !decide (minOf (l.crossings.map fun c => c 0) ≤ t)

/-- `vmin` and `vmax` of `norm_iota`; `scripts/plotting/iter_plots.py:279-280`, `stell_plots.py:268-269`; there is none in `helix_plots.py`. -/
noncomputable def iotaBar (st : Style) (ls : List FieldLine) : Option (ℝ × ℝ) :=
  let iotas := ls.map (·.iota)
  match st.right with
  | .iotaRange => some (minOf iotas, maxOf iotas)
  | .iotaPercentile => some (percentile iotas 5, percentile iotas 95)
  | .pressure => none

/-- The colour of a dot on the right panel; `scripts/plotting/iter_plots.py:311`, `helix_plots.py:279`. -/
noncomputable def rightColour (st : Style) (p : V3 → ℝ) (ls : List FieldLine) (l : FieldLine) (c : V3) : Except String Nat :=
  match iotaBar st ls with
  | some b => colour b.1 b.2 l.iota
  | none => colour 0 (maxOf (allP st p ls)) (pValue st p c)

/-- A dot at a crossing. -/
noncomputable def dot (F : V3 → V3) (c : V3) (k : Nat) : Dot := ⟨plotPoint F c 0, plotPoint F c 2, k⟩

open Classical in
/-- The dots of one line on the two panels; `scripts/plotting/iter_plots.py:294-313`. -/
noncomputable def lineDots (st : Style) (F : V3 → V3) (p : V3 → ℝ) (ls : List FieldLine) (l : FieldLine) : Except String (List Dot × List Dot) :=
  match each (fun c => (colour 0 (maxOf (allP st p ls)) (pValue st p c)).map (dot F c)) (l.crossings.filter fun c => plotPoint F c 0 < gapLeft (allR F ls)) with
  | .error e => .error e
  | .ok a => match each (fun c => (rightColour st p ls l c).map (dot F c)) (l.crossings.filter fun c => gapRight (allR F ls) < plotPoint F c 0) with
    | .error e => .error e
    | .ok b => .ok (a, b)

/-- The figure of one saved field; `scripts/plotting/iter_plots.py:247-318`. -/
noncomputable def figure (st : Style) (F : V3 → V3) (p : V3 → ℝ) (ls : List FieldLine) : Except String Figure :=
  let R := allR F ls
  if R.length = 0 then .error "ValueError: zero-size array to reduction operation minimum which has no identity"
  else match each (lineDots st F p ls) (ls.filter (drawn st)) with
  | .error e => .error e
  | .ok dots =>
    .ok { left := dots.flatMap (·.1)
          right := dots.flatMap (·.2)
          xLeft := (gapLeft R - span R, gapLeft R)
          xRight := (gapRight R, gapRight R + span R)
          y := (-0.01 + minOf (allZ F ls), 0.01 + maxOf (allZ F ls))
          pBar := (0, maxOf (allP st p ls))
          iotaBar := iotaBar st ls }

end Panels
end Mrx
