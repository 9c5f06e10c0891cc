import Verif.Model.Forms
import Mathlib.Analysis.SpecialFunctions.Trigonometric.Basic

/-!
# Model of the extraction operators (`mrx/boundary.py`, `mrx/polar.py`)
-/

namespace Mrx

/-! ## `LazyBoundaryOperator` -/

/-- `get_dim`; `mrx/boundary.py:56-64`. (Natural number subtraction: for `original_dim < 2` Python gets a
negative size and the operator has no rows.) -/
def getDim (originalDim : Nat) (bcType : String) : Nat :=
  if bcType = "dirichlet" then originalDim - 2
  else if bcType = "right" then originalDim - 1
  else if bcType = "left" then originalDim - 1
  else originalDim

/-- `LazyBoundaryOperator(Λ, types)`: the form's sizes and the three condition types;
`mrx/boundary.py:45-93`. -/
structure BoundaryOp where
  Λ : Dims
  types : String × String × String

namespace BoundaryOp

/-- The operator's own sizes `k, nr, nt, nz, dr, dt, dz`; `mrx/boundary.py:66-69`. The component sizes
`n1, n2, n3, n` (71-93), `_vector_index` (103-124) and `_unravel_index` (126-170) are textually those of
`DifferentialForm` with these sizes, so `Dims.n`, `Dims.vectorIndex`, `Dims.unravelIndex` are reused. -/
def rowDims (B : BoundaryOp) : Dims :=
  { B.Λ with nr := getDim B.Λ.nr B.types.1, nt := getDim B.Λ.nt B.types.2.1, nz := getDim B.Λ.nz B.types.2.2 }

/-- `target_l`, `target_m`, `target_n`; `mrx/boundary.py:186-191`. -/
def target (type : String) (p : Nat) : Int :=
  if type = "dirichlet" ∨ type = "left" then (p : Int) - 1 else p

/-- `_element(row_idx, col_idx)`; `mrx/boundary.py:172-228`. -/
def element (B : BoundaryOp) (row col : Nat) : Int :=
  let r := B.rowDims.unravelIndex row
  let catRow := r.1; let i : Int := r.2.1; let j : Int := r.2.2.1; let k : Int := r.2.2.2
  let q := B.Λ.unravelIndex col
  let catCol := q.1; let p := q.2.1; let m := q.2.2.1; let n := q.2.2.2
  let tl := target B.types.1 p
  let tm := target B.types.2.1 m
  let tn := target B.types.2.2 n
  if B.Λ.k = 0 then if i = tl ∧ j = tm ∧ k = tn then 1 else 0
  else if B.Λ.k = 1 then
    if catRow = catCol then
      if catRow = 0 then (if i = p ∧ j = tm ∧ k = tn then 1 else 0)
      else if catRow = 1 then (if i = tl ∧ j = m ∧ k = tn then 1 else 0)
      else (if i = tl ∧ j = tm ∧ k = n then 1 else 0)
    else 0
  else if B.Λ.k = 2 ∨ B.Λ.k = -1 then
    if catRow = catCol then
      if catRow = 0 then (if i = tl ∧ j = m ∧ k = n then 1 else 0)
      else if catRow = 1 then (if i = p ∧ j = tm ∧ k = n then 1 else 0)
      else (if i = p ∧ j = m ∧ k = tn then 1 else 0)
    else 0
  else if row = col then 1 else 0

/-- `matrix()` = `assemble()`; `mrx/boundary.py:95-97, 230-239`. -/
def matrix (B : BoundaryOp) : Matrix (Fin B.rowDims.n) (Fin B.Λ.n) ℝ := fun r c => (B.element r c : ℝ)

end BoundaryOp

/-! ## `get_xi` and `LazyExtractionOperator` -/

/-- The array of polar mapping coefficients, shape `(3, 2, nt)`. -/
structure Xi where
  nt : Nat
  val : Nat → Nat → Nat → ℝ

/-- `ξ[p, i, j]` with JAX's clamping of out-of-range indices. -/
def Xi.get (x : Xi) (p i j : Nat) : ℝ := x.val (min p 2) (min i 1) (min j (x.nt - 1))

/-- `theta_js[j]`; `mrx/polar.py:342`. -/
noncomputable def thetaJs (nt j : Nat) : ℝ := ((j : ℝ) / nt) * 2 * Real.pi

/-- `get_xi(nt)`; `mrx/polar.py:327-364`. -/
noncomputable def getXi (nt : Nat) : Xi where
  nt := nt
  val p i j :=
    if i = 0 then 1 / 3
    else if p = 0 then 1 / 3 + (1 / 3 * Real.cos (thetaJs nt j) + 0 * Real.sin (thetaJs nt j))
    else if p = 1 then 1 / 3 + (-1 / 6 * Real.cos (thetaJs nt j) + Real.sqrt 3 / 6 * Real.sin (thetaJs nt j))
    else 1 / 3 + (-1 / 6 * Real.cos (thetaJs nt j) + -Real.sqrt 3 / 6 * Real.sin (thetaJs nt j))

/-- `LazyExtractionOperator(Lambda, xi, zero_bc)`; `mrx/polar.py:39-76`. -/
structure PolarOp where
  Λ : Dims
  ξ : Xi
  zeroBc : Bool

/-- `jnp.unravel_index(i, (a, b))` (flat index clipped to `a*b - 1`). -/
def Jax.unravelIndex2 (i a b : Nat) : Nat × Nat :=
  let j := min i (a * b - 1)
  (j / b % a, j % b)

namespace PolarOp

/-- `self.o`; `mrx/polar.py:53`. -/
def o (P : PolarOp) : Nat := if P.zeroBc then 1 else 0

/-- Number of coefficients `(nr - 2 - o) * t + 3` of a polar disc times `z`; `mrx/polar.py:57, 63, 72`.
(Natural number subtraction; the theorems assume `nr ≥ 3` where it matters.) -/
def discSize (P : PolarOp) (t z : Nat) : Nat := ((P.Λ.nr - 2 - P.o) * t + 3) * z

/-- `((nr - 2 - o) * t + 2) * z`; `mrx/polar.py:62, 65`. -/
def ringSize (P : PolarOp) (t z : Nat) : Nat := ((P.Λ.nr - 2 - P.o) * t + 2) * z

/-- `self.n1`; `mrx/polar.py:56-75`. -/
def n1 (P : PolarOp) : Nat :=
  if P.Λ.k = 0 then P.discSize P.Λ.nt P.Λ.nz
  else if P.Λ.k = 1 then (P.Λ.dr - 1) * P.Λ.nt * P.Λ.nz
  else if P.Λ.k = 2 then P.ringSize P.Λ.dt P.Λ.dz
  else if P.Λ.k = 3 then (P.Λ.dr - 1) * P.Λ.dt * P.Λ.dz
  else P.discSize P.Λ.nt P.Λ.nz

/-- `self.n2`; `mrx/polar.py:56-75`. -/
def n2 (P : PolarOp) : Nat :=
  if P.Λ.k = 0 then 0
  else if P.Λ.k = 1 then P.ringSize P.Λ.dt P.Λ.nz
  else if P.Λ.k = 2 then (P.Λ.dr - 1) * P.Λ.nt * P.Λ.dz
  else if P.Λ.k = 3 then 0
  else P.discSize P.Λ.nt P.Λ.nz

/-- `self.n3`; `mrx/polar.py:56-75`. -/
def n3 (P : PolarOp) : Nat :=
  if P.Λ.k = 0 then 0
  else if P.Λ.k = 1 then P.discSize P.Λ.nt P.Λ.dz
  else if P.Λ.k = 2 then (P.Λ.dr - 1) * P.Λ.dt * P.Λ.nz
  else if P.Λ.k = 3 then 0
  else P.discSize P.Λ.nt P.Λ.nz

/-- `self.n`; `mrx/polar.py:76`. -/
def n (P : PolarOp) : Nat := P.n1 + P.n2 + P.n3

/-- `_vector_index(idx)`; `mrx/polar.py:86-104`. -/
def vectorIndex (P : PolarOp) (idx : Nat) : Nat × Nat :=
  if P.Λ.k = 0 ∨ P.Λ.k = 3 then (0, idx)
  else
    ((if P.n1 ≤ idx then 1 else 0) + (if P.n1 + P.n2 ≤ idx then 1 else 0),
      idx - P.n1 * (if P.n1 ≤ idx then 1 else 0) - P.n2 * (if P.n1 + P.n2 ≤ idx then 1 else 0))

/-- `_inner_zeroform`; `mrx/polar.py:216-232`. -/
noncomputable def innerZeroform (P : PolarOp) (row col nr nt nz : Nat) : ℝ :=
  let pm := Jax.unravelIndex2 row 3 nz
  let a := Jax.unravelIndex3 col nr nt nz
  (if a.2.2 = pm.2 then 1 else 0) * (if a.1 < 2 then 1 else 0) * P.ξ.get pm.1 a.1 a.2.1

/-- `_outer_zeroform`; `mrx/polar.py:234-252`. -/
def outerZeroform (P : PolarOp) (row col nr nt nz : Nat) : ℝ :=
  let a := Jax.unravelIndex3 row nr nt nz
  (if col = Jax.ravelMultiIndex3 (a.1 + 2) a.2.1 a.2.2 nr nt nz then 1 else 0)
    * (if P.o = 1 then (if a.1 ≠ nr - 1 then 1 else 0) else 1)

/-- `inner_oneform_r`; `mrx/polar.py:254-274`. -/
noncomputable def innerOneformR (P : PolarOp) (row col nr nt nz : Nat) : ℝ :=
  let pm := Jax.unravelIndex2 row 2 nz
  let p := pm.1 + 1
  let a := Jax.unravelIndex3 col nr nt nz
  (if a.2.2 = pm.2 then 1 else 0) * (if a.1 = 0 then 1 else 0) * (P.ξ.get p 1 a.2.1 - P.ξ.get p 0 a.2.1)

/-- `inner_oneform_θ`; `mrx/polar.py:276-297`. -/
noncomputable def innerOneformT (P : PolarOp) (row col nr nt nz : Nat) : ℝ :=
  let pm := Jax.unravelIndex2 row 2 nz
  let p := pm.1 + 1
  let a := Jax.unravelIndex3 col nr nt nz
  (if a.2.2 = pm.2 then 1 else 0) * (if a.1 = 1 then 1 else 0)
    * (P.ξ.get p 1 ((a.2.1 + 1) % nt) - P.ξ.get p 1 a.2.1)

/-- `_threeform`; `mrx/polar.py:299-317`. -/
def threeform (row col nr nt nz : Nat) : ℝ :=
  let a := Jax.unravelIndex3 row nr nt nz
  if col = Jax.ravelMultiIndex3 (a.1 + 1) a.2.1 a.2.2 nr nt nz then 1 else 0

/-- `_element(row_idx, col_idx)`; `mrx/polar.py:106-214`. In the branches of `jnp.where` that are not
selected `row_idx - 3 nz` may be negative in the code; it is truncated here. -/
noncomputable def element (P : PolarOp) (row col : Nat) : ℝ :=
  let Λ := P.Λ
  if Λ.k = 0 then
    if row < 3 * Λ.nz then P.innerZeroform row col Λ.nr Λ.nt Λ.nz
    else P.outerZeroform (row - 3 * Λ.nz) col Λ.nr Λ.nt Λ.nz
  else if Λ.k = 1 then
    let r := P.vectorIndex row
    let c := Λ.vectorIndex col
    let same : ℝ := if r.1 = c.1 then 1 else 0
    if r.1 = 0 then threeform r.2 c.2 Λ.dr Λ.nt Λ.nz * same
    else if r.1 = 1 then
      if r.2 < 2 * Λ.nz then
        P.innerOneformR r.2 c.2 Λ.dr Λ.nt Λ.nz * (if c.1 = 0 then 1 else 0)
          + P.innerOneformT r.2 c.2 Λ.nr Λ.dt Λ.nz * (if c.1 = 1 then 1 else 0)
      else P.outerZeroform (r.2 - 2 * Λ.nz) c.2 Λ.nr Λ.dt Λ.nz * same
    else
      if r.2 < 3 * Λ.dz then P.innerZeroform r.2 c.2 Λ.nr Λ.nt Λ.dz * same
      else P.outerZeroform (r.2 - 3 * Λ.dz) c.2 Λ.nr Λ.nt Λ.dz * same
  else if Λ.k = 2 then
    let r := P.vectorIndex row
    let c := Λ.vectorIndex col
    let same : ℝ := if r.1 = c.1 then 1 else 0
    if r.1 = 0 then
      if r.2 < 2 * Λ.nz then
        P.innerOneformT r.2 c.2 Λ.nr Λ.dt Λ.dz * (if c.1 = 0 then 1 else 0)
          - P.innerOneformR r.2 c.2 Λ.dr Λ.nt Λ.dz * (if c.1 = 1 then 1 else 0)
      else P.outerZeroform (r.2 - 2 * Λ.nz) c.2 Λ.nr Λ.dt Λ.dz * same
    else if r.1 = 1 then threeform r.2 c.2 Λ.dr Λ.nt Λ.dz * same
    else threeform r.2 c.2 Λ.dr Λ.dt Λ.nz * same
  else if Λ.k = 3 then threeform row col Λ.nr Λ.nt Λ.nz
  else
    let r := P.vectorIndex row
    let c := Λ.vectorIndex col
    (if r.2 < 3 * Λ.nz then P.innerZeroform r.2 c.2 Λ.nr Λ.nt Λ.nz
      else P.outerZeroform (r.2 - 3 * Λ.nz) c.2 Λ.nr Λ.nt Λ.nz) * (if r.1 = c.1 then 1 else 0)

/-- `matrix()` = `assemble()`; `mrx/polar.py:78-80, 319-323`. -/
noncomputable def matrix (P : PolarOp) : Matrix (Fin P.n) (Fin P.Λ.n) ℝ := fun r c => P.element r c

end PolarOp
end Mrx
