import Verif.Model.Forms

/-!
# What a basis function of a discrete differential form should be

Written from the English description of the spaces: a basis function with index `(c, i, j, l)` has the
single non-zero component `c`, which is a product of three 1-D factors; the factor in direction `dir` is
a derivative spline
* never for 0-forms and vector fields,
* only in direction `c` for 1-forms,
* in the two directions different from `c` for 2-forms,
* always for 3-forms.
-/

namespace Mrx.Spec

/-- Is the factor of component `c` in direction `dir` a derivative spline? -/
def isDeriv (k : Int) (c dir : Nat) : Bool :=
  if k = 1 then decide (dir = c) else if k = 2 then decide (dir ≠ c) else decide (k = 3)

variable {K : Type*} [Field K] [LinearOrder K]

/-- The 1-D factor (spline or derivative spline number `i`) in direction `dir` at `t`. -/
def factor (f : Form K) (deriv : Bool) (dir : Nat) (t : K) (i : Nat) : K :=
  match dir with
  | 0 => if deriv then f.dΛ0.evaluate t i else f.Λ0.evaluate t i
  | 1 => if deriv then f.dΛ1.evaluate t i else f.Λ1.evaluate t i
  | _ => if deriv then f.dΛ2.evaluate t i else f.Λ2.evaluate t i

/-- Component `c` of basis function `(c, i, j, l)` at `x`. -/
def basisValue (f : Form K) (c : Nat) (x : K × K × K) (i j l : Nat) : K :=
  factor f (isDeriv f.dims.k c 0) 0 x.1 i * factor f (isDeriv f.dims.k c 1) 1 x.2.1 j
    * factor f (isDeriv f.dims.k c 2) 2 x.2.2 l

end Mrx.Spec
