import Verif.Model.Mappings
import Verif.Model.Assembly
import Verif.Spec.Fields

/-!
# Model of the interpolation functions of `mrx/gvec_interface.py`

`lstsq` stands for `A, b ↦ jnp.linalg.lstsq(A, b, rcond=None)[0]` (exact arithmetic; the cut-off of small singular values is not modelled).
-/

namespace Mrx
open Matrix

/-- The entries of the data set that are read: coordinates and arrays over the grid (indices `[i, j, k]`, and a component for `B`). -/
structure GvecEq where
  rho : List ℝ
  theta : List ℝ
  zeta : List ℝ
  X1 : Nat → Nat → Nat → ℝ
  X2 : Nat → Nat → Nat → ℝ
  B : Nat → Nat → Nat → Fin 3 → ℝ

/-- A least-squares solver. -/
abbrev Lstsq := ∀ m n : Nat, Matrix (Fin m) (Fin n) ℝ → (Fin m → ℝ) → Fin n → ℝ

namespace GvecEq
variable (eq : GvecEq) (nfp : ℝ)

/-- Number of grid points. -/
def size : Nat := eq.rho.length * eq.theta.length * eq.zeta.length

/-- `a.ravel()` of an array over the grid. -/
def ravel {α : Type} (a : Nat → Nat → Nat → α) (n : Nat) : α :=
  a (n / eq.zeta.length / eq.theta.length) (n / eq.zeta.length % eq.theta.length) (n % eq.zeta.length)

/-- `jnp.meshgrid(_ρ, _θ, _ζ, indexing="ij")`; `mrx/gvec_interface.py:35, 86`. -/
noncomputable def mesh : (Nat → Nat → Nat → ℝ) × (Nat → Nat → Nat → ℝ) × (Nat → Nat → Nat → ℝ) :=
  (fun i _ _ => eq.rho.getD i 0, fun _ j _ => eq.theta.getD j 0, fun _ _ k => eq.zeta.getD k 0)

/-- `pts[n]`; `mrx/gvec_interface.py:37-39, 88-90`. -/
noncomputable def pts (n : Nat) : V3 := gvecPoint nfp (eq.ravel eq.mesh.1 n) (eq.ravel eq.mesh.2.1 n) (eq.ravel eq.mesh.2.2 n)

/-- `M[j, i] = Λ0[i](pts[j])`; `mrx/gvec_interface.py:42-43`. -/
noncomputable def mapMatrix (D : DeRham) : Matrix (Fin eq.size) (Fin D.S.L0.dims.n) ℝ :=
  fun j i => D.S.L0.evaluate (DeRham.fromV3 (eq.pts nfp j)) i 0

/-- A column of `c`; `mrx/gvec_interface.py:44-45` (`lstsq` treats the columns of `y` one by one). -/
noncomputable def mapCoefficients (lstsq : Lstsq) (D : DeRham) (X : Nat → Nat → Nat → ℝ) : Fin D.S.L0.dims.n → ℝ :=
  lstsq _ _ (eq.mapMatrix nfp D) fun j => eq.ravel X j

/-- `interpolate_map_from_GVEC(gvec_eq, nfp, mapSeq)(x)`; `mrx/gvec_interface.py:9-50`. `DiscreteFunction` multiplies the coefficients, one per
basis function of `Λ0`, with `E0`; `none` is the `TypeError` for incompatible shapes. -/
noncomputable def interpolateMap (lstsq : Lstsq) (D : DeRham) (x : V3) : Option V3 :=
  if h : D.m0 = D.S.L0.dims.n then
    let X1h := fun y (k : Fin 1) => discreteFunction D.S.L0 (fun i => eq.mapCoefficients nfp lstsq D eq.X1 (Fin.cast h i)) D.E0 (DeRham.fromV3 y) k
    let X2h := fun y (k : Fin 1) => discreteFunction D.S.L0 (fun i => eq.mapCoefficients nfp lstsq D eq.X2 (Fin.cast h i)) D.E0 (DeRham.fromV3 y) k
    some (gvecStellaratorMap X1h X2h nfp x)
  else none

/-- The indices of the points in `pts[valid_pts]`; `mrx/gvec_interface.py:92`. -/
noncomputable def validIdx (tol : ℝ) : List Nat := (List.range eq.size).filter fun n => gvecValid tol (eq.pts nfp n)

/-- `Λ2_phys(i, x)`; `mrx/gvec_interface.py:94-114`. -/
noncomputable def phys2Basis (D : DeRham) (Phi : V3 → V3) (i : Nat) (x : V3) : V3 :=
  fun k => (jacfwd Phi x *ᵥ fun c : Fin 3 => D.S.L2.evaluate (DeRham.fromV3 x) i c) k / (jacfwd Phi x).det

/-- `M` after the multiplication with `E2`; `mrx/gvec_interface.py:116-121`. -/
noncomputable def fieldTensor (tol : ℝ) (D : DeRham) (Phi : V3 → V3) (i : Fin D.m2) (j : Nat) (k : Fin 3) : ℝ :=
  ∑ l : Fin D.S.L2.dims.n, D.E2 i l * phys2Basis D Phi l (eq.pts nfp ((eq.validIdx nfp tol).getD j 0)) k

/-- `A = M.reshape(M.shape[0], -1).T`; `mrx/gvec_interface.py:123`. -/
noncomputable def fieldMatrix (tol : ℝ) (D : DeRham) (Phi : V3 → V3) : Matrix (Fin ((eq.validIdx nfp tol).length * 3)) (Fin D.m2) ℝ :=
  fun r i => eq.fieldTensor nfp tol D Phi i (r / 3) (Fin.ofNat 3 r)

/-- `b = y.ravel()` with `y = gvec_eq.B.values.reshape(-1, 3)[valid_pts]`; `mrx/gvec_interface.py:122, 124`. -/
noncomputable def fieldData (tol : ℝ) (r : Fin ((eq.validIdx nfp tol).length * 3)) : ℝ :=
  eq.ravel eq.B ((eq.validIdx nfp tol).getD (r / 3) 0) (Fin.ofNat 3 r)

/-- `interpolate_B_from_GVEC(gvec_eq, Seq, Phi, nfp, exclude_axis_tol)[0]`; `mrx/gvec_interface.py:53-127`. -/
noncomputable def interpolateB (lstsq : Lstsq) (D : DeRham) (Phi : V3 → V3) (tol : ℝ) : Fin D.m2 → ℝ :=
  lstsq _ _ (eq.fieldMatrix nfp tol D Phi) (eq.fieldData nfp tol)

end GvecEq
end Mrx
