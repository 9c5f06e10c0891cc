import Verif.Model.Sequence
import Verif.Model.Geometry
import Verif.Model.Extraction

/-!
# Model of the assembly in `mrx/utils.py:139-256` and of `DeRhamSequence` (`mrx/derham_sequence.py`)

Exact real arithmetic. `jnp.linalg.solve(A, b)` is `A⁻¹ b` (the theorems using it assume or prove that `A`
is nonsingular; for singular `A` the code gets `inf`/`nan`). `jnp.linalg.pinv` is not computed: the operators that
use it take its result as an argument together with the defining Penrose equations.
-/

namespace Mrx
open Matrix Finset

/-- A getter `(i, j, k) ↦ value`: component `k` of form number `i` at quadrature point `j`. -/
abbrev Getter := Nat → Nat → Nat → ℝ

/-- `assemble(getter_1, getter_2, W, n1, n2)` with `W` of shape `(n_q, d, d)`; `mrx/utils.py:139-187`. -/
def assemble (g1 g2 : Getter) (nq d : Nat) (W : Nat → Matrix (Fin d) (Fin d) ℝ) (n1 n2 : Nat) :
    Matrix (Fin n1) (Fin n2) ℝ :=
  fun a b => ∑ j ∈ range nq, ∑ k : Fin d, ∑ m : Fin d, g1 a j k * W j k m * g2 b j m

/-- `evaluate_at_xq(getter, dofs, n_q, d)`, entry `[j, k]`; `mrx/utils.py:190-228`. -/
def evaluateAtXq (g : Getter) {n : Nat} (dofs : Fin n → ℝ) (j k : Nat) : ℝ := ∑ i : Fin n, g i j k * dofs i

/-- `integrate_against(getter, w_jk, n)` with `w_jk` of shape `(n_q, d)`; `mrx/utils.py:231-256`. -/
def integrateAgainst (g : Getter) (nq d : Nat) (w : Nat → Fin d → ℝ) (n : Nat) (i : Fin n) : ℝ :=
  ∑ j ∈ range nq, ∑ k : Fin d, g i j k * w j k

/-- `jnp.linalg.solve(A, B)`. -/
noncomputable def solve {n m : Nat} (A : Matrix (Fin n) (Fin n) ℝ) (B : Matrix (Fin n) (Fin m) ℝ) :
    Matrix (Fin n) (Fin m) ℝ := A⁻¹ * B

/-- A `DeRhamSequence` after `__init__` and `evaluate_1d`: forms and quadrature rule, metric tables, and the
extraction matrices with their row counts; `mrx/derham_sequence.py:17-130`. -/
structure DeRham where
  S : Seq ℝ
  F : V3 → V3
  g : Metric
  m0 : Nat
  m1 : Nat
  m2 : Nat
  m3 : Nat
  E0 : Matrix (Fin m0) (Fin S.L0.dims.n) ℝ
  E1 : Matrix (Fin m1) (Fin S.L1.dims.n) ℝ
  E2 : Matrix (Fin m2) (Fin S.L2.dims.n) ℝ
  E3 : Matrix (Fin m3) (Fin S.L3.dims.n) ℝ

/-- A logical point as a vector. -/
def toV3 (x : ℝ × ℝ × ℝ) : V3 := ![x.1, x.2.1, x.2.2]

namespace DeRham

/-- The extraction matrices for `polar = True`; `mrx/derham_sequence.py:86-97`. -/
noncomputable def ofPolar (S : Seq ℝ) (F : V3 → V3) (nt : Nat) (dirichlet : Bool) : DeRham where
  S := S
  F := F
  g := Metric.ofMap F (S.Q.x.map toV3)
  m0 := (PolarOp.mk S.L0.dims (getXi nt) dirichlet).n
  m1 := (PolarOp.mk S.L1.dims (getXi nt) dirichlet).n
  m2 := (PolarOp.mk S.L2.dims (getXi nt) dirichlet).n
  m3 := (PolarOp.mk S.L3.dims (getXi nt) dirichlet).n
  E0 := (PolarOp.mk S.L0.dims (getXi nt) dirichlet).matrix
  E1 := (PolarOp.mk S.L1.dims (getXi nt) dirichlet).matrix
  E2 := (PolarOp.mk S.L2.dims (getXi nt) dirichlet).matrix
  E3 := (PolarOp.mk S.L3.dims (getXi nt) dirichlet).matrix

/-- Boundary condition types; `mrx/derham_sequence.py:101-112`. -/
def bcTypes (dirichlet : Bool) : String × String × String :=
  if dirichlet then ("dirichlet", "none", "none") else ("none", "none", "none")

/-- The extraction matrices for `polar = False`; `mrx/derham_sequence.py:99-112`. -/
noncomputable def ofBoundary (S : Seq ℝ) (F : V3 → V3) (dirichlet : Bool) : DeRham where
  S := S
  F := F
  g := Metric.ofMap F (S.Q.x.map toV3)
  m0 := (BoundaryOp.mk S.L0.dims (bcTypes dirichlet)).rowDims.n
  m1 := (BoundaryOp.mk S.L1.dims (bcTypes dirichlet)).rowDims.n
  m2 := (BoundaryOp.mk S.L2.dims (bcTypes dirichlet)).rowDims.n
  m3 := (BoundaryOp.mk S.L3.dims (bcTypes dirichlet)).rowDims.n
  E0 := (BoundaryOp.mk S.L0.dims (bcTypes dirichlet)).matrix
  E1 := (BoundaryOp.mk S.L1.dims (bcTypes dirichlet)).matrix
  E2 := (BoundaryOp.mk S.L2.dims (bcTypes dirichlet)).matrix
  E3 := (BoundaryOp.mk S.L3.dims (bcTypes dirichlet)).matrix

/-- `DeRhamSequence(ns, ps, q, types, F, polar, dirichlet)`; `mrx/derham_sequence.py:58-112`. -/
noncomputable def mk? (ns ps : Nat × Nat × Nat) (q : Nat) (types : String × String × String) (F : V3 → V3)
    (polar dirichlet : Bool) : Except String DeRham :=
  match Seq.mk? ns ps q types with
  | .error e => .error e
  | .ok S => .ok (if polar then ofPolar S F ns.2.1 dirichlet else ofBoundary S F dirichlet)

variable (D : DeRham)

/-- `Q.n`, the number of quadrature points (`mrx/quadrature.py:64`; `W.shape[0]` in `assemble`). -/
def nq : Nat := D.S.Q.w.length

/-- `Q.w[j]`. -/
def w (j : Nat) : ℝ := D.S.Q.w.getD j 0

/-- `(J_j * Q.w)[:, None, None]`; `mrx/derham_sequence.py:361`. -/
def W0 (j : Nat) : Matrix (Fin 1) (Fin 1) ℝ := fun _ _ => D.g.J j * D.w j
/-- `G_inv_jkl * (J_j * Q.w)[:, None, None]`; `mrx/derham_sequence.py:371`. -/
def W1 (j : Nat) : M33 := fun k l => D.g.Ginv j k l * (D.g.J j * D.w j)
/-- `G_jkl * (1/J_j * Q.w)[:, None, None]`; `mrx/derham_sequence.py:381`. -/
noncomputable def W2 (j : Nat) : M33 := fun k l => D.g.G j k l * (1 / D.g.J j * D.w j)
/-- `(1/J_j * Q.w)[:, None, None]`; `mrx/derham_sequence.py:391`. -/
noncomputable def W3 (j : Nat) : Matrix (Fin 1) (Fin 1) ℝ := fun _ _ => 1 / D.g.J j * D.w j

/-- `assemble_M0`; `mrx/derham_sequence.py:356-364`. -/
noncomputable def M0 : Matrix (Fin D.m0) (Fin D.m0) ℝ :=
  D.E0 * assemble D.S.getLambda0 D.S.getLambda0 D.nq 1 D.W0 D.S.L0.dims.n D.S.L0.dims.n * D.E0ᵀ
/-- `assemble_M1`; `mrx/derham_sequence.py:366-374`. -/
noncomputable def M1 : Matrix (Fin D.m1) (Fin D.m1) ℝ :=
  D.E1 * assemble D.S.getLambda1 D.S.getLambda1 D.nq 3 D.W1 D.S.L1.dims.n D.S.L1.dims.n * D.E1ᵀ
/-- `assemble_M2`; `mrx/derham_sequence.py:376-384`. -/
noncomputable def M2 : Matrix (Fin D.m2) (Fin D.m2) ℝ :=
  D.E2 * assemble D.S.getLambda2 D.S.getLambda2 D.nq 3 D.W2 D.S.L2.dims.n D.S.L2.dims.n * D.E2ᵀ
/-- `assemble_M3`; `mrx/derham_sequence.py:386-394`. -/
noncomputable def M3 : Matrix (Fin D.m3) (Fin D.m3) ℝ :=
  D.E3 * assemble D.S.getLambda3 D.S.getLambda3 D.nq 1 D.W3 D.S.L3.dims.n D.S.L3.dims.n * D.E3ᵀ

/-- `D0` in `assemble_d0`; `mrx/derham_sequence.py:396-406`. -/
noncomputable def D0 : Matrix (Fin D.m1) (Fin D.m0) ℝ :=
  D.E1 * assemble D.S.getLambda1 D.S.getDLambda0 D.nq 3 D.W1 D.S.L1.dims.n D.S.L0.dims.n * D.E0ᵀ
/-- `strong_grad`; `mrx/derham_sequence.py:408`. -/
noncomputable def strongGrad : Matrix (Fin D.m1) (Fin D.m0) ℝ := solve D.M1 D.D0
/-- `weak_div`; `mrx/derham_sequence.py:409`. -/
noncomputable def weakDiv : Matrix (Fin D.m0) (Fin D.m1) ℝ := -solve D.M0ᵀ D.D0ᵀ

/-- `D1` in `assemble_d1`; `mrx/derham_sequence.py:411-421`. -/
noncomputable def D1 : Matrix (Fin D.m2) (Fin D.m1) ℝ :=
  D.E2 * assemble D.S.getLambda2 D.S.getDLambda1 D.nq 3 D.W2 D.S.L2.dims.n D.S.L1.dims.n * D.E1ᵀ
/-- `strong_curl`; `mrx/derham_sequence.py:423`. -/
noncomputable def strongCurl : Matrix (Fin D.m2) (Fin D.m1) ℝ := solve D.M2 D.D1
/-- `weak_curl`; `mrx/derham_sequence.py:424`. -/
noncomputable def weakCurl : Matrix (Fin D.m1) (Fin D.m2) ℝ := solve D.M1ᵀ D.D1ᵀ

/-- `D2` in `assemble_d2`; `mrx/derham_sequence.py:426-436`. -/
noncomputable def D2 : Matrix (Fin D.m3) (Fin D.m2) ℝ :=
  D.E3 * assemble D.S.getLambda3 D.S.getDLambda2 D.nq 1 D.W3 D.S.L3.dims.n D.S.L2.dims.n * D.E2ᵀ
/-- `strong_div`; `mrx/derham_sequence.py:438`. -/
noncomputable def strongDiv : Matrix (Fin D.m3) (Fin D.m2) ℝ := solve D.M3 D.D2
/-- `weak_grad`; `mrx/derham_sequence.py:439`. -/
noncomputable def weakGrad : Matrix (Fin D.m2) (Fin D.m3) ℝ := -solve D.M2ᵀ D.D2ᵀ

/-- `assemble_dd0`; `mrx/derham_sequence.py:441-452`. -/
noncomputable def dd0 : Matrix (Fin D.m0) (Fin D.m0) ℝ :=
  solve D.M0 (D.E0 * assemble D.S.getDLambda0 D.S.getDLambda0 D.nq 3 D.W1 D.S.L0.dims.n D.S.L0.dims.n * D.E0ᵀ)
/-- `assemble_dd1`; `mrx/derham_sequence.py:454-468`. -/
noncomputable def dd1 : Matrix (Fin D.m1) (Fin D.m1) ℝ :=
  solve D.M1 (D.E1 * assemble D.S.getDLambda1 D.S.getDLambda1 D.nq 3 D.W2 D.S.L1.dims.n D.S.L1.dims.n * D.E1ᵀ)
    - D.strongGrad * D.weakDiv
/-- `assemble_dd2`; `mrx/derham_sequence.py:470-484`. -/
noncomputable def dd2 : Matrix (Fin D.m2) (Fin D.m2) ℝ :=
  solve D.M2 (D.E2 * assemble D.S.getDLambda2 D.S.getDLambda2 D.nq 1 D.W3 D.S.L2.dims.n D.S.L2.dims.n * D.E2ᵀ)
    + D.strongCurl * D.weakCurl
/-- `assemble_dd3`; `mrx/derham_sequence.py:486-496`. -/
noncomputable def dd3 : Matrix (Fin D.m3) (Fin D.m3) ℝ := -D.strongDiv * D.weakGrad

/-- `M12` in `assemble_P12`; `mrx/derham_sequence.py:498-510`. -/
noncomputable def M12 : Matrix (Fin D.m1) (Fin D.m2) ℝ :=
  D.E1 * assemble D.S.getLambda1 D.S.getLambda2 D.nq 3 (fun j => D.w j • (1 : M33)) D.S.L1.dims.n D.S.L2.dims.n * D.E2ᵀ
/-- `P12`; `mrx/derham_sequence.py:511`. -/
noncomputable def P12 : Matrix (Fin D.m1) (Fin D.m2) ℝ := solve D.M1 D.M12
/-- `assemble_P03`; `mrx/derham_sequence.py:513-524`. -/
noncomputable def P03 : Matrix (Fin D.m0) (Fin D.m3) ℝ :=
  solve D.M0 (D.E0 * assemble D.S.getLambda0 D.S.getLambda3 D.nq 1 (fun j => fun _ _ => D.w j) D.S.L0.dims.n
    D.S.L3.dims.n * D.E3ᵀ)

/-- `assemble_leray_projection`; `mrx/derham_sequence.py:560-566`. `X` is the result of
`jnp.linalg.pinv(self.dd3)`. -/
noncomputable def leray (X : Matrix (Fin D.m3) (Fin D.m3) ℝ) : Matrix (Fin D.m2) (Fin D.m2) ℝ :=
  1 + D.weakGrad * X * D.strongDiv

end DeRham
end Mrx
