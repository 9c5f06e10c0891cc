import Verif.Spec.Forms

/-!
# Which degrees of freedom a boundary condition keeps

Written from the English description: "dirichlet" constrains both faces of a direction, "left" the face
`x = 0`, "right" the face `x = 1`, any other word constrains nothing. A basis function is dropped when its
1-D factor in a constrained direction is a spline (not a derivative spline) that is the first (face `0`) or
the last (face `1`) one.
-/

namespace Mrx.Spec

/-- The condition constrains the face `x = 0`. -/
def LeftConstrained (t : String) : Prop := t = "dirichlet" ∨ t = "left"

/-- The condition constrains the face `x = 1`. -/
def RightConstrained (t : String) : Prop := t = "dirichlet" ∨ t = "right"

/-- Spline number `p` of `n` survives the condition `t`. -/
def Keeps1 (t : String) (n p : Nat) : Prop := (LeftConstrained t → p ≠ 0) ∧ (RightConstrained t → p + 1 ≠ n)

/-- Degree of freedom `(c, i, j, l)` of a `k`-form survives the conditions `types`. -/
def Kept (d : Dims) (types : String × String × String) (u : Nat × Nat × Nat × Nat) : Prop :=
  (isDeriv d.k u.1 0 = true ∨ Keeps1 types.1 d.nr u.2.1) ∧
  (isDeriv d.k u.1 1 = true ∨ Keeps1 types.2.1 d.nt u.2.2.1) ∧
  (isDeriv d.k u.1 2 = true ∨ Keeps1 types.2.2 d.nz u.2.2.2)

/-- Condition in direction `dir`. -/
def typeOf (types : String × String × String) : Nat → String
  | 0 => types.1
  | 1 => types.2.1
  | _ => types.2.2

end Mrx.Spec
