import Verif.Model.Figures
import Verif.Model.Drum
import Verif.Model.Geometry

/-!
# Model of the eigenfunction figures of the scripts

`plot_eigenvectors_grid` of `scripts/interactive/cylinder_cavity.py` and `toroid_cavity.py`, the selection of eigenpairs before it, and `plot_reconstruction` of
`scripts/interactive/drumshape.py`. A figure is the data handed to matplotlib; colours, fonts, labels and the saved file are left out.
`plt.subplots(n, n)` raises for `n = 0`, and returns a single `Axes`, which has no `flatten`, for `n = 1`.
-/

namespace Mrx
open Matrix Finset Figures

namespace EigenPlots

/-! ## Eigenpairs -/

/-- `evs[jnp.isfinite(evs)]` and `argsort`, applied to values and vectors alike; `none` is an infinite or undefined number. `jnp.argsort` is stable;
`scripts/interactive/cylinder_cavity.py:71-83`, `toroid_cavity.py:58-68`. -/
noncomputable def selectPairs {α : Type} (pairs : List (Option ℝ × α)) : List (ℝ × α) :=
  (pairs.filterMap fun p => p.1.map fun w => (w, p.2)).insertionSort fun a b => a.1 ≤ b.1

/-- The points of the spectrum plot, `ax1.plot(evs[:end])`: matplotlib counts from `0`; `scripts/interactive/cylinder_cavity.py:242-245`, `toroid_cavity.py:87-88`. -/
def spectrumPoints (evs : List ℝ) (last : Nat) : List (Nat × ℝ) := (List.range (evs.take last).length).zip (evs.take last)

/-! ## The panels of the cavity modes -/

/-- The points `_x`; `scripts/interactive/cylinder_cavity.py:289-295`, `toroid_cavity.py:98-105`. -/
noncomputable def sectionPoints (eps x3 : ℝ) (nx : Nat) : List V3 := meshPoints (linspace eps (1 - eps) nx) (linspace eps (1 - eps) nx) [x3]

/-- `jnp.split(evecs[:, i], (M1.shape[0],))[0]`: the first `m` entries; `scripts/interactive/cylinder_cavity.py:349`, `toroid_cavity.py:165`. -/
def firstPart {m r : Nat} (v : Fin (m + r) → ℝ) : Fin m → ℝ := fun i => v (Fin.castAdd r i)

/-- `DiscreteFunction(ev_dof, Λ1, E1)` as a function of the logical point; `scripts/interactive/cylinder_cavity.py:350`. -/
noncomputable def modeForm {m : Nat} (Λ1 : Form ℝ) (E1 : Matrix (Fin m) (Fin Λ1.dims.n) ℝ) (dof : Fin m → ℝ) (x : V3) : V3 :=
  fun c => discreteFunction Λ1 dof E1 (x 0, x 1, x 2) c

/-- `Pushforward(u_h, F_map, 1)`; `scripts/interactive/cylinder_cavity.py:351`. -/
noncomputable def modeField {m : Nat} (Λ1 : Form ℝ) (E1 : Matrix (Fin m) (Fin Λ1.dims.n) ℝ) (F : V3 → V3) (dof : Fin m → ℝ) (x : V3) : V3 :=
  (Pushforward.vector 1 (modeForm Λ1 E1 dof) F x).getD 0

/-- Entry `(i, j)` of the contour data `(y1_coords, y2_coords, _z1_norm)` of one panel; `ax` is the physical coordinate on the vertical axis (`1` for the cylinder, `2` for the
torus); `scripts/interactive/cylinder_cavity.py:296-298, 353-357`, `toroid_cavity.py:106-109, 168-171`. -/
noncomputable def panelEntry {m : Nat} (Λ1 : Form ℝ) (E1 : Matrix (Fin m) (Fin Λ1.dims.n) ℝ) (F : V3 → V3) (ax : Fin 3) (x : List V3) (nx : Nat) (dof : Fin m → ℝ) (i j : Nat) :
    Option (ℝ × ℝ × ℝ) :=
  match reshape2 (x.map F) nx i j, reshape2 (x.map fun p => vnorm (modeField Λ1 E1 F dof p)) nx i j with
  | some y, some z => some (y 0, y ax, z)
  | _, _ => none

/-- The loop over the axes: `axes[i]` raises past the last one; `scripts/interactive/cylinder_cavity.py:346-360`, `toroid_cavity.py:163-173`. -/
def drawPanels {α : Type} (nAxes : Nat) (draw : Nat → α) : List Nat → Except PlotErr (List α)
  | [] => .ok []
  | i :: is => if i < nAxes then (match drawPanels nAxes draw is with
      | .ok ps => .ok (draw i :: ps)
      | .error e => .error e) else .error .indexError

/-- What a grid of panels consists of: its number of rows and columns, the panels drawn in the order of the axes, and the axes removed. -/
structure ModeGrid where
  side : Nat
  panels : List (Nat → Nat → Option (ℝ × ℝ × ℝ))
  removed : List Nat

/-- `plot_eigenvectors_grid`, for a number of panels that is not negative; `Nat.sqrt` is `int(n ** 0.5)`;
`scripts/interactive/cylinder_cavity.py:301-369`, `toroid_cavity.py:123-179`. -/
noncomputable def plotEigenvectorsGrid {m r c : Nat} (evecs : Fin c → Fin (m + r) → ℝ) (Λ1 : Form ℝ) (E1 : Matrix (Fin m) (Fin Λ1.dims.n) ℝ) (F : V3 → V3) (ax : Fin 3)
    (x : List V3) (nx num : Nat) : Except PlotErr ModeGrid :=
  let num := if num > c then c else num
  let side := Nat.sqrt num
  if side = 0 then .error .valueError
  else if side = 1 then .error .attributeError
  else
    let column : Nat → Fin (m + r) → ℝ := fun i => if h : i < c then evecs ⟨i, h⟩ else 0
    match drawPanels (side * side) (fun i => panelEntry Λ1 E1 F ax x nx (firstPart (column i))) (List.range num) with
    | .ok ps => .ok ⟨side, ps, (List.range (side * side)).drop num⟩
    | .error e => .error e

/-- The arrows of the single mode of the torus: position `(X, Z)` and components `(u_X, u_Z)` at entry `(i, j)` of the coarse grid; `toroid_cavity.py:110-119, 182-196`. -/
noncomputable def modeArrow {m : Nat} (Λ1 : Form ℝ) (E1 : Matrix (Fin m) (Fin Λ1.dims.n) ℝ) (F : V3 → V3) (x : List V3) (nx : Nat) (dof : Fin m → ℝ) (i j : Nat) :
    Option ((ℝ × ℝ) × (ℝ × ℝ)) :=
  match reshape2 (x.map F) nx i j, reshape2 (x.map (modeField Λ1 E1 F dof)) nx i j with
  | some y, some u => some ((y 0, y 2), (u 0, u 2))
  | _, _ => none

/-! ## The reconstruction of a drum -/

/-- What `plot_reconstruction` draws. -/
structure Reconstruction where
  /-- Panel 1: the fitted and the target radius. -/
  fitted : List (ℝ × ℝ)
  target : List (ℝ × ℝ)
  /-- Panel 2: entry `(i, j)` of the contour data. -/
  contour : Nat → Nat → Option (ℝ × ℝ × ℝ)
  /-- Panel 3: the target and the fitted spectrum. -/
  targetSpectrum : List (Nat × ℝ)
  spectrum : List (Nat × ℝ)
  /-- Panel 4: the relative differences. -/
  differences : List (Nat × ℝ)
  /-- The loss history and the upper limit of its axis; `none` if no history is passed. -/
  loss : Option (List (Nat × ℝ) × ℝ)

/-- `u_h`, the eigenfunction as a function of the logical point (the pushforward of a 0-form is the 0-form); `scripts/interactive/drumshape.py:324`. -/
noncomputable def drumMode (D : DeRham) (v : Fin D.m0 → ℝ) (x : V3) : ℝ := discreteFunction D.S.L0 v D.E0 (x 0, x 1, x 2) 0

open Classical in
/-- The values of the contour: the eigenfunction, negated if it is negative at `[0, 0, 0]`; `scripts/interactive/drumshape.py:324-330`. -/
noncomputable def signedMode (D : DeRham) (v : Fin D.m0 → ℝ) (x : V3) : ℝ := if drumMode D v ![0, 0, 0] < 0 then -drumMode D v x else drumMode D v x

/-- The grid of the contour; `scripts/interactive/drumshape.py:309-316`. -/
noncomputable def drumGrid : List V3 := meshPoints (linspace 1e-6 (1.0 - 1e-6) 64) (linspace 0 1.0 64) [0]

/-- Entry `(i, j)` of the contour data; `scripts/interactive/drumshape.py:318-332`. -/
noncomputable def drumContour (D : DeRham) (F : V3 → V3) (v : Fin D.m0 → ℝ) (i j : Nat) : Option (ℝ × ℝ × ℝ) :=
  match reshape2 (drumGrid.map F) 64 i j, reshape2 (drumGrid.map (signedMode D v)) 64 i j with
  | some y, some u => some (y 0, y 2, u)
  | _, _ => none

/-- `jnp.arange(1, k_evs + 1)` against some values. -/
def numbered (l : List ℝ) : List (Nat × ℝ) := ((List.range l.length).map (· + 1)).zip l

/-- `rel_diff = abs((current_evs - target_evs) / target_evs)`; `scripts/interactive/drumshape.py:361`. -/
noncomputable def relDiff (current target : List ℝ) : List ℝ := List.zipWith (fun c t => |(c - t) / t|) current target

/-- The panel of the losses: the limit reads `loss_history[0]`; `scripts/interactive/drumshape.py:378-398`. -/
noncomputable def lossPanel : Option (List ℝ) → Except PlotErr (Option (List (Nat × ℝ) × ℝ))
  | none => .ok none
  | some [] => .error .indexError
  | some (l0 :: ls) => .ok (some ((List.range (ls.length + 1)).zip (l0 :: ls), 1.1 * l0))

/-- `plot_reconstruction(a_hat, target_radius_func, target_evs, Seq, n_map, p_map, ...)`; a failing constructor is reported as `ValueError`, and so is a sequence without degrees of
freedom; `scripts/interactive/drumshape.py:204-406`. -/
noncomputable def plotReconstruction (D : DeRham) (chol : Matrix (Fin D.m0) (Fin D.m0) ℝ → Matrix (Fin D.m0) (Fin D.m0) ℝ)
    (eigh : Matrix (Fin D.m0) (Fin D.m0) ℝ → (Fin D.m0 → ℝ) × Matrix (Fin D.m0) (Fin D.m0) ℝ) (nm pm : Nat) (aHat : Nat → ℝ) (targetRadius : ℝ → ℝ) (targetEvs : List ℝ)
    (history : Option (List ℝ)) : Except PlotErr Reconstruction :=
  match Form.mk? (K := ℝ) 0 (nm, 1, 1) (pm, 1, 1) ("periodic", "constant", "constant"), Form.mk? (K := ℝ) 0 (nm, 1, 1) (pm, 0, 0) ("periodic", "constant", "constant") with
  | .ok Λplot, .ok Λmap =>
    if h : 0 < D.m0 then
      let r := getEvs D chol eigh Λmap aHat
      let current := (List.ofFn r.1).take targetEvs.length
      if current.length ≠ targetEvs.length then .error .valueError
      else match lossPanel history with
        | .error e => .error e
        | .ok loss => .ok
          { fitted := (linspace 0 1 200).map fun t => (t, drumRadius Λplot aHat t)
            target := (linspace 0 1 200).map fun t => (t, targetRadius t)
            contour := drumContour D (drumshapeMap (drumRadius Λplot aHat)) (r.2.col ⟨0, h⟩)
            targetSpectrum := numbered targetEvs
            spectrum := numbered current
            differences := numbered (relDiff current targetEvs)
            loss := loss }
    else .error .valueError
  | _, _ => .error .valueError

end EigenPlots
end Mrx
