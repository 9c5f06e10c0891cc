import Verif.Model.LazyMatrices

/-!
# `LazyDerivativeMatrix`: which matrix is assembled, and the shapes

`mrx/lazy_matrices.py:65-103, 259-270`. Arrays carry their shape, so that products can fail.
-/

namespace Mrx
open Matrix

/-- A two-dimensional array. -/
structure Arr2 where
  rows : Nat
  cols : Nat
  entries : Matrix (Fin rows) (Fin cols) ℝ

/-- `jnp.eye(n)`. -/
def Arr2.eye (n : Nat) : Arr2 := ⟨n, n, 1⟩

/-- `a.T`. -/
def Arr2.T (a : Arr2) : Arr2 := ⟨a.cols, a.rows, a.entriesᵀ⟩

/-- `a @ b`: the inner sizes must agree. -/
def Arr2.matmul (a b : Arr2) : Except String Arr2 :=
  if h : a.cols = b.rows then .ok ⟨a.rows, b.cols, a.entries * b.entries.submatrix (Fin.cast h) id⟩
  else .error "TypeError: dot_general requires contracting dimensions to have the same shape"

/-- `LazyDerivativeMatrix.assemble`; `mrx/lazy_matrices.py:259-270`. `none` is Python's `None`, the result if no case matches (vector fields, `k = -1`). The forms are assumed to have the
numbers of components that belong to their degrees. -/
noncomputable def lazyDerivativeAssemble (Q : Quad.Rule ℝ) (F : V3 → V3) (Λ0 Λ1 : Form ℝ) : Option Arr2 :=
  if Λ0.dims.k = 0 then some ⟨Λ1.dims.n, Λ0.dims.n, lazyGradient Q F Λ0 Λ1⟩
  else if Λ0.dims.k = 1 then some ⟨Λ1.dims.n, Λ0.dims.n, lazyCurl Q F Λ0 Λ1⟩
  else if Λ0.dims.k = 2 then some ⟨Λ1.dims.n, Λ0.dims.n, lazyDiv Q F Λ0 Λ1⟩
  else if Λ0.dims.k = 3 then some ⟨Λ0.dims.n, Λ1.dims.n, 0⟩
  else none

/-- `LazyDerivativeMatrix(Λ0, Λ1, Q, F, E0, E1).matrix()`; `mrx/lazy_matrices.py:75-99`; `__array__` (`:101-103`) is a copy of it. -/
noncomputable def lazyDerivativeMatrix (Q : Quad.Rule ℝ) (F : V3 → V3) (Λ0 Λ1 : Form ℝ) (E0 E1 : Option Arr2) : Except String Arr2 :=
  let e0 := E0.getD (Arr2.eye Λ0.dims.n)
  let e1 := E1.getD (Arr2.eye Λ1.dims.n)
  match lazyDerivativeAssemble Q F Λ0 Λ1 with
  | none => .error "TypeError: matmul requires ndarray or scalar arguments, got <class 'NoneType'>"
  | some A =>
    match e1.matmul A with
    | .error e => .error e
    | .ok B => B.matmul e0.T

end Mrx
