import Verif.Model.Geometry
import Mathlib.LinearAlgebra.Lagrange
import Mathlib.Algebra.Polynomial.Roots
import Mathlib.Data.Finset.Max
import Mathlib.Data.Matrix.Mul

/-!
# Model of the computations of `mrx/plotting.py` (grids, Poincaré sections, plot limits)

Exact real arithmetic; NaN is `none`. Drawing itself (matplotlib, plotly) and the integration of field lines (diffrax) are not modelled.
-/

namespace Mrx
open Matrix

/-! ## Grids -/

/-- `jnp.linspace(a, b, n)`. -/
noncomputable def linspace (a b : ℝ) (n : Nat) : List ℝ :=
  (List.range n).map fun i : Nat => if n = 1 then a else a + (i : ℝ) * ((b - a) / (n - 1 : ℝ))

/-- `jnp.array(jnp.meshgrid(x1, x2, x3)).transpose(1, 2, 3, 0).reshape(-1, 3)`: the default `indexing="xy"` makes `x2` the slowest index;
`mrx/plotting.py:158-159, 253-254, 303-304`. -/
def meshPoints (x1 x2 x3 : List ℝ) : List V3 :=
  x2.flatMap fun b => x1.flatMap fun a => x3.map fun c => ![a, b, c]

/-- Entry `(i, j)` of `l.reshape(n1, n2)`. -/
def reshape2 {α : Type} (l : List α) (n2 i j : Nat) : Option α := l[i * n2 + j]?

/-- Entry `(i, j, k)` of `l.reshape(n1, n2, n3)`. -/
def reshape3 {α : Type} (l : List α) (n2 n3 i j k : Nat) : Option α := l[(i * n2 + j) * n3 + k]?

/-- What the grid functions return: `(_x, _y, (_y1, _y2, _y3), (_x1, _x2, _x3))`. The three arrays `_y1`, `_y2`, `_y3` are given together:
`Y i j k` are the three values at index `(i, j, k)`; two-dimensional arrays have `k = 0`, one-dimensional ones `j = k = 0`. -/
structure Grid where
  x : List V3
  y : List V3
  Y : Nat → Nat → Nat → Option V3
  axes : List ℝ × List ℝ × List ℝ

/-- `get_3d_grids`; `mrx/plotting.py:103-164`. -/
noncomputable def get3dGrids (F : V3 → V3) (xMin xMax yMin yMax zMin zMax : ℝ) (nx ny nz : Nat) : Grid :=
  let x1 := linspace xMin xMax nx
  let x2 := linspace yMin yMax ny
  let x3 := linspace zMin zMax nz
  let x := meshPoints x1 x2 x3
  let y := x.map F
  { x := x, y := y, Y := fun i j k => reshape3 y ny nz i j k, axes := (x1, x2, x3) }

/-- The keyword arguments of `get_2d_grids` other than the map and the cut; `mrx/plotting.py:167-175`. -/
structure Grid2Args where
  nx : Nat := 64
  ny : Nat := 64
  nz : Nat := 64
  tol1 : ℝ := 1e-6
  tol2 : ℝ := 0
  tol3 : ℝ := 0
  xMin : ℝ := 0
  xMax : ℝ := 1
  yMin : ℝ := 0
  yMax : ℝ := 1
  zMin : ℝ := 0
  zMax : ℝ := 1
  invertX : Bool := false
  invertY : Bool := false
  invertZ : Bool := false

/-- `_x1` before the cut; `mrx/plotting.py:235, 238-239`. -/
noncomputable def Grid2Args.x1 (a : Grid2Args) : List ℝ :=
  let l := linspace (a.xMin + a.tol1) (a.xMax - a.tol1) a.nx
  if a.invertX then l.reverse else l

/-- `_x2` before the cut; `mrx/plotting.py:236, 240-241`. -/
noncomputable def Grid2Args.x2 (a : Grid2Args) : List ℝ :=
  let l := linspace (a.yMin + a.tol2) (a.yMax - a.tol2) a.ny
  if a.invertY then l.reverse else l

/-- `_x3` before the cut; `mrx/plotting.py:237, 242-243`. -/
noncomputable def Grid2Args.x3 (a : Grid2Args) : List ℝ :=
  let l := linspace (a.zMin + a.tol3) (a.zMax - a.tol3) a.nz
  if a.invertZ then l.reverse else l

/-- `get_2d_grids`; `mrx/plotting.py:167-260`. -/
noncomputable def get2dGrids (F : V3 → V3) (cutValue : ℝ) (cutAxis : Int) (a : Grid2Args) : Grid :=
  let x1 := if cutAxis = 0 then [cutValue] else a.x1
  let x2 := if cutAxis ≠ 0 ∧ cutAxis = 1 then [cutValue] else a.x2
  let x3 := if cutAxis ≠ 0 ∧ cutAxis ≠ 1 then [cutValue] else a.x3
  let n2 := if cutAxis = 0 then a.nz else if cutAxis = 1 then a.nz else a.ny
  let x := meshPoints x1 x2 x3
  let y := x.map F
  { x := x, y := y, Y := fun i j k => if k = 0 then reshape2 y n2 i j else none, axes := (x1, x2, x3) }

/-- `get_1d_grids`; `mrx/plotting.py:263-309`. -/
noncomputable def get1dGrids (F : V3 → V3) (zeta chi : ℝ) (nx : Nat) (tol : ℝ) : Grid :=
  let x1 := linspace tol (1 - tol) nx
  let x := meshPoints x1 [chi] [zeta]
  let y := x.map F
  { x := x, y := y, Y := fun i j k => if j = 0 ∧ k = 0 then y[i]? else none, axes := (x1, [chi], [zeta]) }

/-! ## Intersections -/

/-- `diff` of `trajectory_plane_intersections_jit` for one point with coordinate `x`; `mrx/plotting.py:330-335`. -/
noncomputable def planeDiff (planeVal x : ℝ) : ℝ :=
  if planeVal = 0 then min |x - planeVal| |x - planeVal - 1| else x - planeVal

/-- One segment of `trajectory_plane_intersections_jit`, from `p` to `q`: the mask entry and the intersection point (`none` = NaN: not a
crossing, or `0 / 0`); `mrx/plotting.py:330-350`. Points have `D` coordinates. -/
noncomputable def segmentIntersection {D : Nat} (planeVal : ℝ) (axis : Fin D) (p q : Fin D → ℝ) : Bool × Option (Fin D → ℝ) :=
  let d0 := planeDiff planeVal (p axis)
  let d1 := planeDiff planeVal (q axis)
  let mask := decide (d0 * d1 ≤ 0)
  let denom := d0 - d1
  let t : Option ℝ := if mask then (if denom = 0 then none else some (d0 / denom)) else none
  (mask, t.map fun t => p + t • (q - p))

/-- `trajectory_plane_intersections_jit` on one trajectory; `mrx/plotting.py:312-351`. -/
noncomputable def trajectoryIntersections {D : Nat} (planeVal : ℝ) (axis : Fin D) (traj : List (Fin D → ℝ)) : List (Bool × Option (Fin D → ℝ)) :=
  List.zipWith (segmentIntersection planeVal axis) traj traj.tail

/-- The intersections `poincare_plot` computes from the integrated (unwrapped) logical trajectory; `mrx/plotting.py:828-836`. -/
noncomputable def poincareIntersections (planeVal : ℝ) (axis : Fin 3) (traj : List V3) : List (Bool × Option V3) :=
  trajectoryIntersections planeVal axis (traj.map fun p c => Int.fract (p c))

/-- One pass of the loop of `trajectory_plane_intersections_list`; `mrx/plotting.py:739-751`. -/
noncomputable def segmentPlane (planePoint planeNormal p q : V3) : List V3 :=
  let segVec := q - p
  let denom := planeNormal ⬝ᵥ segVec
  if |denom| < 1e-12 then []
  else
    let t := (planeNormal ⬝ᵥ (planePoint - p)) / denom
    if 0 ≤ t ∧ t ≤ 1 then [p + t • segVec] else []

/-- `trajectory_plane_intersections_list`; `mrx/plotting.py:716-753`. -/
noncomputable def planeIntersectionsList (traj : List V3) (planePoint planeNormal : V3) : List V3 :=
  (List.zipWith (segmentPlane planePoint planeNormal) traj traj.tail).flatten

/-- `jnp.linalg.norm`. -/
noncomputable def vnorm (v : V3) : ℝ := √ (v ⬝ᵥ v)

/-- `s[i]` of `intersect_with_plane`; `mrx/plotting.py:678-679`. -/
noncomputable def planeDistance (normal : V3) (offset : ℝ) (p : V3) : ℝ := p ⬝ᵥ ((vnorm normal)⁻¹ • normal) - offset

/-- `flip_mask[i]`; `mrx/plotting.py:682`. -/
noncomputable def flipMask (normal : V3) (offset : ℝ) (traj : Nat → V3) (i : Nat) : Bool :=
  decide (planeDistance normal offset (traj i) * planeDistance normal offset (traj (i + 1)) < 0)

/-- `idxs`; `mrx/plotting.py:683-686`: the crossing segments in increasing order, padded with `N` to length `N`. -/
noncomputable def crossingIdxs (normal : V3) (offset : ℝ) (traj : Nat → V3) (N : Nat) : List Nat :=
  let l := ((List.range (N - 1)).map fun i => if flipMask normal offset traj i then i else N).mergeSort
  (l ++ List.replicate (N - l.length) N).take N

/-- `jnp.polyfit(t, v, deg)` with `t = 0, 1, …, deg`: the polynomial of degree at most `deg` through the `deg + 1` points;
`mrx/plotting.py:697, 706`. -/
noncomputable def polyfit (deg : Nat) (v : Nat → ℝ) : Polynomial ℝ :=
  Lagrange.interpolate (Finset.range (deg + 1)) (fun i => (i : ℝ)) v

/-- `idxs_local[k]`; `mrx/plotting.py:690-691`. -/
def stencil (N deg : Nat) (i k : Nat) : Nat := (min (max ((i : Int) + (-(deg / 2 : Nat) + k)) 0) (N - 1)).toNat

/-- `t_cross`: the smallest real root strictly between 0 and `deg`; `none` = NaN. A vanishing leading coefficient makes `jnp.roots(…,
strip_zeros=False)` return NaN only. Simplification: the code also accepts complex roots with imaginary part below `1e-8`;
`mrx/plotting.py:698-702`. -/
noncomputable def crossingParameter (deg : Nat) (s : Polynomial ℝ) : Option ℝ :=
  if s.coeff deg = 0 then none
  else
    let c := s.roots.toFinset.filter fun t : ℝ => 0 < t ∧ t < deg
    if h : c.Nonempty then some (c.min' h) else none

/-- `interp(i)`; `mrx/plotting.py:688-710`. -/
noncomputable def interpCrossing (normal : V3) (offset : ℝ) (traj : Nat → V3) (N deg i : Nat) : Option V3 :=
  if deg / 2 ≤ i ∧ (i : Int) < N - (deg / 2 : Nat) then
    (crossingParameter deg (polyfit deg fun k => planeDistance normal offset (traj (stencil N deg i k)))).map fun t c =>
      (polyfit deg fun k => traj (stencil N deg i k) c).eval t
  else none

/-- `intersect_with_plane`; `mrx/plotting.py:654-713`, on a trajectory of `N` points. -/
noncomputable def intersectWithPlane (traj : Nat → V3) (N : Nat) (normal : V3) (offset : ℝ) (deg : Nat) : List (Option V3) × List Nat :=
  let idxs := crossingIdxs normal offset traj N
  (idxs.map (interpCrossing normal offset traj N deg), idxs)

/-! ## Plot limits -/

/-- `set_axes_equal`: the new limits of the three axes from the old ones; `mrx/plotting.py:1399-1416`. -/
noncomputable def setAxesEqual (X Y Z : ℝ × ℝ) : (ℝ × ℝ) × (ℝ × ℝ) × (ℝ × ℝ) :=
  let m := max (max (X.2 - X.1) (Y.2 - Y.1)) (Z.2 - Z.1)
  let mid := fun l : ℝ × ℝ => (l.1 + l.2) / 2
  ((mid X - m / 2, mid X + m / 2), (mid Y - m / 2, mid Y + m / 2), (mid Z - m / 2, mid Z + m / 2))

end Mrx
