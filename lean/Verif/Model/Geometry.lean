import Mathlib.Analysis.Calculus.FDeriv.Symmetric
import Mathlib.Analysis.Calculus.FDeriv.Pi
import Mathlib.Analysis.Calculus.ContDiff.Basic
import Mathlib.LinearAlgebra.Matrix.Determinant.Basic
import Mathlib.LinearAlgebra.Matrix.NonsingularInverse
import Mathlib.LinearAlgebra.CrossProduct
import Mathlib.Analysis.Real.Sqrt

/-!
# Model of the pointwise geometry in `mrx/utils.py` and `mrx/differential_forms.py`

Points and vectors are `Fin 3 → ℝ` (exact real arithmetic instead of IEEE doubles); `jax.jacfwd` is the
matrix of the exact (Fréchet) partial derivatives.
-/

namespace Mrx
open Matrix

/-- A point or a vector with three components. -/
abbrev V3 := Fin 3 → ℝ

/-- A 3×3 array. -/
abbrev M33 := Matrix (Fin 3) (Fin 3) ℝ

/-- `jax.jacfwd(F)(x)[i, j] = ∂F_i/∂x_j`; used in `mrx/utils.py:38,80,96,112`. -/
noncomputable def jacfwd {m : Nat} (F : V3 → Fin m → ℝ) (x : V3) : Matrix (Fin m) (Fin 3) ℝ :=
  fun i j => fderiv ℝ F x (Pi.single j 1) i

/-- `jacobian_determinant`; `mrx/utils.py:29-38`. -/
noncomputable def jacobianDeterminant (F : V3 → V3) (x : V3) : ℝ := (jacfwd F x).det

/-- The determinant expression of `inv33`; `mrx/utils.py:52-56`. -/
def inv33Det (m : M33) : ℝ :=
  m 0 0 * (m 1 1 * m 2 2 - m 1 2 * m 2 1) + m 1 0 * (m 2 1 * m 0 2 - m 0 1 * m 2 2)
    + m 2 0 * (m 0 1 * m 1 2 - m 0 2 * m 1 1)

/-- `inv33`; `mrx/utils.py:41-67`. -/
noncomputable def inv33 (m : M33) : M33 :=
  if |inv33Det m| < 1e-10 then 0
  else Matrix.of fun i j => (!![m 1 1 * m 2 2 - m 1 2 * m 2 1, m 0 2 * m 2 1 - m 0 1 * m 2 2, m 0 1 * m 1 2 - m 0 2 * m 1 1;
                     m 1 2 * m 2 0 - m 1 0 * m 2 2, m 0 0 * m 2 2 - m 0 2 * m 2 0, m 0 2 * m 1 0 - m 0 0 * m 1 2;
                     m 1 0 * m 2 1 - m 1 1 * m 2 0, m 0 1 * m 2 0 - m 0 0 * m 2 1, m 0 0 * m 1 1 - m 0 1 * m 1 0] :
                     M33) i j / inv33Det m

/-- `div`; `mrx/utils.py:70-82` (an array of one element). -/
noncomputable def div (F : V3 → V3) (x : V3) : Fin 1 → ℝ := fun _ => (jacfwd F x).trace * 1

/-- `curl`; `mrx/utils.py:85-100`. -/
noncomputable def curl (F : V3 → V3) (x : V3) : V3 :=
  let DF := jacfwd F x
  ![DF 2 1 - DF 1 2, DF 0 2 - DF 2 0, DF 1 0 - DF 0 1]

/-- `grad`; `mrx/utils.py:103-114` (`ravel` of the 1×3 Jacobian of a scalar field). -/
noncomputable def grad (F : V3 → Fin 1 → ℝ) (x : V3) : V3 := fun j => jacfwd F x 0 j

/-- `Pushforward.__call__` for scalar-valued forms (`k = 0, 3`); `mrx/differential_forms.py:413-438`.
For the other degrees see `Pushforward.vector`; any other `k` returns `None`. -/
noncomputable def Pushforward.scalar (k : Int) (f : V3 → Fin 1 → ℝ) (F : V3 → V3) (x : V3) :
    Option (Fin 1 → ℝ) :=
  if k = 0 then some (f x)
  else if k = 3 then some (fun c => f x c / (jacfwd F x).det)
  else none

/-- `Pushforward.__call__` for vector-valued forms (`k = 1, 2, -1`); `mrx/differential_forms.py:413-438`. -/
noncomputable def Pushforward.vector (k : Int) (f : V3 → V3) (F : V3 → V3) (x : V3) : Option V3 :=
  if k = 1 then some ((inv33 (jacfwd F x))ᵀ *ᵥ f x)
  else if k = 2 then some (fun c => (jacfwd F x *ᵥ f x) c / (jacfwd F x).det)
  else if k = -1 then some (jacfwd F x *ᵥ f x)
  else none

/-- `Pullback.__call__` for scalar-valued forms (`k = 0, 3`); `mrx/differential_forms.py:466-490`. -/
noncomputable def Pullback.scalar (k : Int) (f : V3 → Fin 1 → ℝ) (F : V3 → V3) (x : V3) :
    Option (Fin 1 → ℝ) :=
  let y := F x
  if k = 0 then some (f y)
  else if k = 3 then some (fun c => f y c * (jacfwd F x).det)
  else none

/-- `Pullback.__call__` for vector-valued forms (`k = 1, 2, -1`); `mrx/differential_forms.py:466-490`. -/
noncomputable def Pullback.vector (k : Int) (f : V3 → V3) (F : V3 → V3) (x : V3) : Option V3 :=
  let y := F x
  if k = 1 then some ((jacfwd F x)ᵀ *ᵥ f y)
  else if k = 2 then some (fun c => (inv33 (jacfwd F x) *ᵥ f y) c * (jacfwd F x).det)
  else if k = -1 then some (inv33 (jacfwd F x) *ᵥ f y)
  else none

/-- The metric tables of `DeRhamSequence.__init__`; `mrx/derham_sequence.py:79-84`:
`J_j`, `G_jkl`, `G_inv_jkl`. -/
structure Metric where
  J : Nat → ℝ
  G : Nat → M33
  Ginv : Nat → M33

/-- `mrx/derham_sequence.py:79-84`: evaluation of the metric at the quadrature points `xs`
(points beyond the last are not accessed by the code; here they get the value at the origin). -/
noncomputable def Metric.ofMap (F : V3 → V3) (xs : List V3) : Metric where
  J j := jacobianDeterminant F (xs.getD j 0)
  G j := (jacfwd F (xs.getD j 0))ᵀ * jacfwd F (xs.getD j 0)
  Ginv j := inv33 ((jacfwd F (xs.getD j 0))ᵀ * jacfwd F (xs.getD j 0))

end Mrx
