import Verif.Model.SplineBases
import Mathlib.Data.Matrix.Mul

/-!
# Model of `DifferentialForm` and `DiscreteFunction` (`mrx/differential_forms.py`)
-/

namespace Mrx

/-- The degree and the sizes stored on a `DifferentialForm`; `mrx/differential_forms.py:47-55, 76-91`.
`k = -1` is a vector field. -/
structure Dims where
  k : Int
  nr : Nat
  nt : Nat
  nz : Nat
  dr : Nat
  dt : Nat
  dz : Nat

namespace Dims

/-- The degrees accepted by `DifferentialForm.__init__`; `mrx/differential_forms.py:95-150`. -/
def validDegree (k : Int) : Prop := k = 0 ∨ k = 1 ∨ k = 2 ∨ k = 3 ∨ k = -1

instance (k : Int) : Decidable (validDegree k) := by unfold validDegree; infer_instance

/-- `self.shape`; `mrx/differential_forms.py:97, 107-111, 121-125, 131, 141-145`. -/
def shape (d : Dims) : List (Nat × Nat × Nat) :=
  if d.k = 0 then [(d.nr, d.nt, d.nz)]
  else if d.k = 1 then [(d.dr, d.nt, d.nz), (d.nr, d.dt, d.nz), (d.nr, d.nt, d.dz)]
  else if d.k = 2 then [(d.nr, d.dt, d.dz), (d.dr, d.nt, d.dz), (d.dr, d.dt, d.nz)]
  else if d.k = 3 then [(d.dr, d.dt, d.dz)]
  else [(d.nr, d.nt, d.nz), (d.nr, d.nt, d.nz), (d.nr, d.nt, d.nz)]

/-- `self.n1`; `mrx/differential_forms.py:98, 112, 126, 132, 146`. -/
def n1 (d : Dims) : Nat :=
  if d.k = 0 then d.nr * d.nt * d.nz
  else if d.k = 1 then d.dr * d.nt * d.nz
  else if d.k = 2 then d.nr * d.dt * d.dz
  else if d.k = 3 then d.dr * d.dt * d.dz
  else d.nr * d.nt * d.nz

/-- `self.n2`; `mrx/differential_forms.py:99, 113, 127, 133, 147`. -/
def n2 (d : Dims) : Nat :=
  if d.k = 0 then 0
  else if d.k = 1 then d.nr * d.dt * d.nz
  else if d.k = 2 then d.dr * d.nt * d.dz
  else if d.k = 3 then 0
  else d.nr * d.nt * d.nz

/-- `self.n3`; `mrx/differential_forms.py:100, 114, 128, 134, 148`. -/
def n3 (d : Dims) : Nat :=
  if d.k = 0 then 0
  else if d.k = 1 then d.nr * d.nt * d.dz
  else if d.k = 2 then d.dr * d.dt * d.nz
  else if d.k = 3 then 0
  else d.nr * d.nt * d.nz

/-- `self.n`; `mrx/differential_forms.py:152`. -/
def n (d : Dims) : Nat := d.n1 + d.n2 + d.n3

/-- `_vector_index(idx)`; `mrx/differential_forms.py:155-172`. (`int32` conversion of a Boolean is
written as `if`.) -/
def vectorIndex (d : Dims) (idx : Nat) : Nat × Nat :=
  if d.k = 0 ∨ d.k = 3 then (0, idx)
  else
    let n1 := d.n1
    let n2 := d.n2
    ((if n1 ≤ idx then 1 else 0) + (if n1 + n2 ≤ idx then 1 else 0),
      idx - n1 * (if n1 ≤ idx then 1 else 0) - n2 * (if n1 + n2 ≤ idx then 1 else 0))

/-- `_ravel_index(c, i, j, k)`; `mrx/differential_forms.py:174-249`. -/
def ravelIndex (d : Dims) (c i j k : Nat) : Nat :=
  if d.k = 0 then Jax.ravelMultiIndex3 i j k d.nr d.nt d.nz
  else if d.k = 1 then
    if c = 0 then Jax.ravelMultiIndex3 i j k d.dr d.nt d.nz
    else if c = 1 then d.n1 + Jax.ravelMultiIndex3 i j k d.nr d.dt d.nz
    else d.n1 + d.n2 + Jax.ravelMultiIndex3 i j k d.nr d.nt d.dz
  else if d.k = 2 then
    if c = 0 then Jax.ravelMultiIndex3 i j k d.nr d.dt d.dz
    else if c = 1 then d.n1 + Jax.ravelMultiIndex3 i j k d.dr d.nt d.dz
    else d.n1 + d.n2 + Jax.ravelMultiIndex3 i j k d.dr d.dt d.nz
  else if d.k = 3 then Jax.ravelMultiIndex3 i j k d.dr d.dt d.dz
  else
    if c = 0 then Jax.ravelMultiIndex3 i j k d.nr d.nt d.nz
    else if c = 1 then d.n1 + Jax.ravelMultiIndex3 i j k d.nr d.nt d.nz
    else d.n1 + d.n2 + Jax.ravelMultiIndex3 i j k d.nr d.nt d.nz

/-- `_unravel_index(idx)`; `mrx/differential_forms.py:251-298`. Result `(c, i, j, k)`. -/
def unravelIndex (d : Dims) (idx : Nat) : Nat × Nat × Nat × Nat :=
  if d.k = 0 then (0, Jax.unravelIndex3 idx d.nr d.nt d.nz)
  else if d.k = 1 then
    let cv := d.vectorIndex idx
    (cv.1, if cv.1 = 0 then Jax.unravelIndex3 cv.2 d.dr d.nt d.nz
      else if cv.1 = 1 then Jax.unravelIndex3 cv.2 d.nr d.dt d.nz
      else Jax.unravelIndex3 cv.2 d.nr d.nt d.dz)
  else if d.k = 2 then
    let cv := d.vectorIndex idx
    (cv.1, if cv.1 = 0 then Jax.unravelIndex3 cv.2 d.nr d.dt d.dz
      else if cv.1 = 1 then Jax.unravelIndex3 cv.2 d.dr d.nt d.dz
      else Jax.unravelIndex3 cv.2 d.dr d.dt d.nz)
  else if d.k = 3 then (0, Jax.unravelIndex3 idx d.dr d.dt d.dz)
  else
    let cv := d.vectorIndex idx
    (cv.1, Jax.unravelIndex3 cv.2 d.nr d.nt d.nz)

end Dims

variable {K : Type*} [Field K] [LinearOrder K]

/-- Attributes of a `DifferentialForm`; `mrx/differential_forms.py:57-153`. `Λ`, `dΛ` are the lists of
the three 1-D bases and of their derivative bases. -/
structure Form (K : Type*) where
  dims : Dims
  Λ0 : SplineBasis K
  Λ1 : SplineBasis K
  Λ2 : SplineBasis K
  dΛ0 : DerivativeSpline K
  dΛ1 : DerivativeSpline K
  dΛ2 : DerivativeSpline K

namespace Form

/-- Number of derivative splines, `dr`, `dt`, `dz`; `mrx/differential_forms.py:80-91`. -/
def dsize (n : Nat) (type : String) : Nat := if type = "clamped" then n - 1 else n

/-- `DifferentialForm.__init__` with default knot vectors; `mrx/differential_forms.py:57-153`. -/
def mk? (k : Int) (ns ps : Nat × Nat × Nat) (types : String × String × String) :
    Except String (Form K) :=
  match SplineBasis.mk? ns.1 ps.1 types.1, SplineBasis.mk? ns.2.1 ps.2.1 types.2.1,
      SplineBasis.mk? ns.2.2 ps.2.2 types.2.2 with
  | .ok s0, .ok s1, .ok s2 =>
    match DerivativeSpline.mk? s0, DerivativeSpline.mk? s1, DerivativeSpline.mk? s2 with
    | .ok d0, .ok d1, .ok d2 =>
      if Dims.validDegree k then
        .ok ⟨⟨k, ns.1, ns.2.1, ns.2.2, dsize ns.1 types.1, dsize ns.2.1 types.2.1,
          dsize ns.2.2 types.2.2⟩, s0, s1, s2, d0, d1, d2⟩
      else .error "ValueError: Degree k must be 0, 1, 2, 3, or -1 (vector field)"
    | _, _, _ => .error "ValueError"
  | _, _, _ => .error "ValueError"

/-- `self.bases[c]`; `mrx/differential_forms.py:96, 102-106, 116-120, 130, 136-140`. -/
def bases (f : Form K) (c : Nat) : TensorBasis K :=
  if f.dims.k = 0 then ⟨[.spline f.Λ0, .spline f.Λ1, .spline f.Λ2]⟩
  else if f.dims.k = 1 then
    if c = 0 then ⟨[.deriv f.dΛ0, .spline f.Λ1, .spline f.Λ2]⟩
    else if c = 1 then ⟨[.spline f.Λ0, .deriv f.dΛ1, .spline f.Λ2]⟩
    else ⟨[.spline f.Λ0, .spline f.Λ1, .deriv f.dΛ2]⟩
  else if f.dims.k = 2 then
    if c = 0 then ⟨[.spline f.Λ0, .deriv f.dΛ1, .deriv f.dΛ2]⟩
    else if c = 1 then ⟨[.deriv f.dΛ0, .spline f.Λ1, .deriv f.dΛ2]⟩
    else ⟨[.deriv f.dΛ0, .deriv f.dΛ1, .spline f.Λ2]⟩
  else if f.dims.k = 3 then ⟨[.deriv f.dΛ0, .deriv f.dΛ1, .deriv f.dΛ2]⟩
  else ⟨[.spline f.Λ0, .spline f.Λ1, .spline f.Λ2]⟩

/-- `self.bases[c](x, index)` for a point with three coordinates (the dimension check of
`TensorBasis.evaluate` cannot fail then). -/
def baseValue (f : Form K) (c : Nat) (x : K × K × K) (index : Nat) : K :=
  match (f.bases c).evaluate [x.1, x.2.1, x.2.2] index with
  | .ok v => v
  | .error _ => 0

/-- Component `comp` of `DifferentialForm.evaluate(x, i)` (and of `__call__`, `__getitem__`);
`mrx/differential_forms.py:300-341`. The returned array (length 1 for `k = 0, 3`, length 3 otherwise)
is represented by its component function. -/
def evaluate (f : Form K) (x : K × K × K) (i : Nat) (comp : Nat) : K :=
  let cv := f.dims.vectorIndex i
  if f.dims.k = 0 ∨ f.dims.k = 3 then 1 * f.baseValue 0 x cv.2
  else
    let e : K := if comp = cv.1 then 1 else 0
    e * (if cv.1 = 0 then f.baseValue 0 x cv.2
      else if cv.1 = 1 then f.baseValue 1 x cv.2 else f.baseValue 2 x cv.2)

end Form

/-- `DiscreteFunction(dof, Λ, E).__call__(x)`, component `comp`; `mrx/differential_forms.py:344-384`:
`dof @ E @ vmap(Λ)(x, arange(n))`. -/
def discreteFunction {m : Nat} (Λ : Form K) (dof : Fin m → K) (E : Matrix (Fin m) (Fin Λ.dims.n) K)
    (x : K × K × K) (comp : Nat) : K :=
  dotProduct (Matrix.vecMul dof E) fun i => Λ.evaluate x i comp

end Mrx
