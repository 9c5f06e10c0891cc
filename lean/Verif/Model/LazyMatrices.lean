import Verif.Model.Projectors

/-!
# Model of `mrx/lazy_matrices.py`

The forms are evaluated directly at the quadrature points. `jax.jacfwd` of a basis function pushes forward the coordinate vectors:
column `j` is the derivative along coordinate line `j` (`jacfwdForm`).
`E0.matrix()` and `E1.matrix()` are passed as matrices. The dispatch of `LazyDerivativeMatrix` and its 3-form branch are in `Model.LazyDispatch`;
`sparse` and `__array__` are not modelled.
-/

namespace Mrx
open Matrix Finset

/-- Restriction of a function of three variables to coordinate line `j` through `x`. -/
def coordLine (g : ℝ × ℝ × ℝ → ℝ) (x : ℝ × ℝ × ℝ) : Nat → ℝ → ℝ
  | 0 => fun y => g (y, x.2.1, x.2.2)
  | 1 => fun y => g (x.1, y, x.2.2)
  | _ => fun y => g (x.1, x.2.1, y)

/-- The `j`-th coordinate. -/
def coordOf (x : ℝ × ℝ × ℝ) : Nat → ℝ
  | 0 => x.1
  | 1 => x.2.1
  | _ => x.2.2

/-- `jax.jacfwd(lambda y: Λ(y, i))(x)[comp, j]`; used through `grad`, `curl`, `div` (`mrx/utils.py:70-114`). -/
noncomputable def jacfwdForm (Λ : Form ℝ) (i : Nat) (x : ℝ × ℝ × ℝ) (comp j : Nat) : ℝ :=
  deriv (coordLine (fun y => Λ.evaluate y i comp) x j) (coordOf x j)

/-- `grad(lambda y: Λ(y, i))(x)`; `mrx/utils.py:103-114`. -/
noncomputable def gradForm (Λ : Form ℝ) (i : Nat) (x : ℝ × ℝ × ℝ) : V3 := fun j => jacfwdForm Λ i x 0 j
/-- `curl(lambda y: Λ(y, i))(x)`; `mrx/utils.py:85-100`. -/
noncomputable def curlForm (Λ : Form ℝ) (i : Nat) (x : ℝ × ℝ × ℝ) : V3 :=
  ![jacfwdForm Λ i x 2 1 - jacfwdForm Λ i x 1 2, jacfwdForm Λ i x 0 2 - jacfwdForm Λ i x 2 0,
    jacfwdForm Λ i x 1 0 - jacfwdForm Λ i x 0 1]
/-- `div(lambda y: Λ(y, i))(x)`; `mrx/utils.py:70-82`. -/
noncomputable def divForm (Λ : Form ℝ) (i : Nat) (x : ℝ × ℝ × ℝ) : Fin 1 → ℝ :=
  fun _ => (jacfwdForm Λ i x 0 0 + jacfwdForm Λ i x 1 1 + jacfwdForm Λ i x 2 2) * 1

/-- `Λ(x, i)` for a form with one component. -/
noncomputable def evalS (Λ : Form ℝ) (i : Nat) (x : ℝ × ℝ × ℝ) : Fin 1 → ℝ := fun k => Λ.evaluate x i k
/-- `Λ(x, i)` for a form with three components. -/
noncomputable def evalV (Λ : Form ℝ) (i : Nat) (x : ℝ × ℝ × ℝ) : V3 := fun k => Λ.evaluate x i k

/-- `einsum("ijk,ljk,j,j->li", a, b, c, w)` with `a`, `b` evaluated at the quadrature points. -/
noncomputable def lazyEinsum {d : Nat} (Q : Quad.Rule ℝ) (n0 n1 : Nat) (a b : Nat → ℝ × ℝ × ℝ → Fin d → ℝ) (c : ℝ × ℝ × ℝ → ℝ) :
    Matrix (Fin n1) (Fin n0) ℝ :=
  fun l i => ∑ j ∈ range Q.w.length, ∑ k : Fin d,
    a i (Q.x.getD j 0) k * b l (Q.x.getD j 0) k * c (Q.x.getD j 0) * Q.w.getD j 0

/-- `LazyMatrix.matrix`; `mrx/lazy_matrices.py:88-99`. -/
def lazyMatrix {n0 n1 r0 r1 : Nat} (A : Matrix (Fin n1) (Fin n0) ℝ) (E0 : Matrix (Fin r0) (Fin n0) ℝ) (E1 : Matrix (Fin r1) (Fin n1) ℝ) :
    Matrix (Fin r1) (Fin r0) ℝ := E1 * A * E0ᵀ

section
variable (Q : Quad.Rule ℝ) (F : V3 → V3)

/-- `DF(x)`. -/
noncomputable def lazyDF (x : ℝ × ℝ × ℝ) : M33 := jacfwd F (toV3 x)
/-- `jacobian_determinant(F)(x)`. -/
noncomputable def lazyJ (x : ℝ × ℝ × ℝ) : ℝ := jacobianDeterminant F (toV3 x)

/-- `zeroform_assemble`; `mrx/lazy_matrices.py:181-187`. -/
noncomputable def lazyMass0 (Λ : Form ℝ) : Matrix (Fin Λ.dims.n) (Fin Λ.dims.n) ℝ :=
  lazyEinsum Q _ _ (evalS Λ) (evalS Λ) (lazyJ F)
/-- `oneform_assemble`; `mrx/lazy_matrices.py:189-199`. -/
noncomputable def lazyMass1 (Λ : Form ℝ) : Matrix (Fin Λ.dims.n) (Fin Λ.dims.n) ℝ :=
  lazyEinsum Q _ _ (fun i x => (inv33 (lazyDF F x))ᵀ *ᵥ evalV Λ i x) (fun i x => (inv33 (lazyDF F x))ᵀ *ᵥ evalV Λ i x) (lazyJ F)
/-- `twoform_assemble`; `mrx/lazy_matrices.py:201-211`. -/
noncomputable def lazyMass2 (Λ : Form ℝ) : Matrix (Fin Λ.dims.n) (Fin Λ.dims.n) ℝ :=
  lazyEinsum Q _ _ (fun i x => lazyDF F x *ᵥ evalV Λ i x) (fun i x => lazyDF F x *ᵥ evalV Λ i x) (fun x => 1 / lazyJ F x)
/-- `threeform_assemble`; `mrx/lazy_matrices.py:213-219`. -/
noncomputable def lazyMass3 (Λ : Form ℝ) : Matrix (Fin Λ.dims.n) (Fin Λ.dims.n) ℝ :=
  lazyEinsum Q _ _ (evalS Λ) (evalS Λ) (fun x => 1 / lazyJ F x)
/-- `vector_assemble`; `mrx/lazy_matrices.py:221-231`. -/
noncomputable def lazyMassV (Λ : Form ℝ) : Matrix (Fin Λ.dims.n) (Fin Λ.dims.n) ℝ :=
  lazyEinsum Q _ _ (fun i x => lazyDF F x *ᵥ evalV Λ i x) (fun i x => lazyDF F x *ᵥ evalV Λ i x) (lazyJ F)

/-- `LazyMassMatrix.assemble`; `mrx/lazy_matrices.py:167-179` (other degrees return `None`; such forms cannot be built). -/
noncomputable def lazyMass (Λ : Form ℝ) : Matrix (Fin Λ.dims.n) (Fin Λ.dims.n) ℝ :=
  if Λ.dims.k = 0 then lazyMass0 Q F Λ else if Λ.dims.k = 1 then lazyMass1 Q F Λ else if Λ.dims.k = 2 then lazyMass2 Q F Λ
  else if Λ.dims.k = 3 then lazyMass3 Q F Λ else lazyMassV Q F Λ

/-- `gradient_assemble`; `mrx/lazy_matrices.py:272-287`. -/
noncomputable def lazyGradient (Λ0 Λ1 : Form ℝ) : Matrix (Fin Λ1.dims.n) (Fin Λ0.dims.n) ℝ :=
  lazyEinsum Q _ _ (fun i x => (inv33 (lazyDF F x))ᵀ *ᵥ gradForm Λ0 i x) (fun i x => (inv33 (lazyDF F x))ᵀ *ᵥ evalV Λ1 i x) (lazyJ F)
/-- `curl_assemble`; `mrx/lazy_matrices.py:289-305`. -/
noncomputable def lazyCurl (Λ0 Λ1 : Form ℝ) : Matrix (Fin Λ1.dims.n) (Fin Λ0.dims.n) ℝ :=
  lazyEinsum Q _ _ (fun i x => lazyDF F x *ᵥ curlForm Λ0 i x) (fun i x => lazyDF F x *ᵥ evalV Λ1 i x) (fun x => 1 / lazyJ F x)
/-- `div_assemble`; `mrx/lazy_matrices.py:307-317`. -/
noncomputable def lazyDiv (Λ0 Λ1 : Form ℝ) : Matrix (Fin Λ1.dims.n) (Fin Λ0.dims.n) ℝ :=
  lazyEinsum Q _ _ (divForm Λ0) (evalS Λ1) (fun x => 1 / lazyJ F x)

/-- `LazyProjectionMatrix.assemble` for forms with `d` components; `mrx/lazy_matrices.py:335-342`. -/
noncomputable def lazyProjection (d : Nat) (Λ0 Λ1 : Form ℝ) : Matrix (Fin Λ1.dims.n) (Fin Λ0.dims.n) ℝ :=
  lazyEinsum (d := d) Q _ _ (fun i x k => Λ0.evaluate x i k) (fun i x k => Λ1.evaluate x i k) (fun _ => 1)

/-- `LazyDoubleCurlMatrix.assemble`; `mrx/lazy_matrices.py:373-383`. -/
noncomputable def lazyDoubleCurl (Λ : Form ℝ) : Matrix (Fin Λ.dims.n) (Fin Λ.dims.n) ℝ :=
  lazyEinsum Q _ _ (fun i x => lazyDF F x *ᵥ curlForm Λ i x) (fun i x => lazyDF F x *ᵥ curlForm Λ i x) (fun x => 1 / lazyJ F x)
/-- `LazyStiffnessMatrix.assemble`; `mrx/lazy_matrices.py:414-424`. -/
noncomputable def lazyStiffness (Λ : Form ℝ) : Matrix (Fin Λ.dims.n) (Fin Λ.dims.n) ℝ :=
  lazyEinsum Q _ _ (fun i x => (inv33 (lazyDF F x))ᵀ *ᵥ gradForm Λ i x) (fun i x => (inv33 (lazyDF F x))ᵀ *ᵥ gradForm Λ i x) (lazyJ F)
/-- `LazyDoubleDivergenceMatrix.assemble`; `mrx/lazy_matrices.py:455-463`. -/
noncomputable def lazyDoubleDiv (Λ : Form ℝ) : Matrix (Fin Λ.dims.n) (Fin Λ.dims.n) ℝ :=
  lazyEinsum Q _ _ (divForm Λ) (divForm Λ) (fun x => 1 / lazyJ F x)

end
end Mrx
