import Verif.Model.Forms
import Verif.Model.Quadrature

/-!
# Model of the tabulated basis functions of `DeRhamSequence` (`mrx/derham_sequence.py:51-354`)
-/

namespace Mrx

/-- A two-dimensional array. -/
structure Table (K : Type*) where
  rows : Nat
  cols : Nat
  val : Nat → Nat → K

/-- `t[i, j]` for a JAX array and non-negative traced indices: out-of-range indices are clamped. -/
def Table.get {K : Type*} (t : Table K) (i j : Nat) : K := t.val (min i (t.rows - 1)) (min j (t.cols - 1))

variable {K : Type*} [Field K] [LinearOrder K]

/-- The forms and the quadrature rule of a `DeRhamSequence`; `mrx/derham_sequence.py:17-56, 72-75`. -/
structure Seq (K : Type*) where
  L0 : Form K
  L1 : Form K
  L2 : Form K
  L3 : Form K
  Q : Quad.Rule K

namespace Seq

/-- First part of `DeRhamSequence.__init__`; `mrx/derham_sequence.py:72-75`. -/
def mk? (ns ps : Nat × Nat × Nat) (q : Nat) (types : String × String × String) :
    Except String (Seq K) :=
  match Form.mk? 0 ns ps types, Form.mk? 1 ns ps types, Form.mk? 2 ns ps types,
      Form.mk? 3 ns ps types with
  | .ok L0, .ok L1, .ok L2, .ok L3 =>
    match Quad.Rule.mk? L0.Λ0 L0.Λ1 L0.Λ2 q with
    | .ok Q => .ok ⟨L0, L1, L2, L3, Q⟩
    | .error e => .error e
  | _, _, _, _ => .error "ValueError"

/-- `lambda_r_jk`; `mrx/derham_sequence.py:119-120`. -/
def lamR (S : Seq K) : Table K :=
  ⟨S.L0.Λ0.n, S.Q.xx.length, fun i j => S.L0.Λ0.evaluate (S.Q.xx.getD j 0) i⟩
/-- `lambda_t_jk`; `mrx/derham_sequence.py:121-122`. -/
def lamT (S : Seq K) : Table K :=
  ⟨S.L0.Λ1.n, S.Q.xy.length, fun i j => S.L0.Λ1.evaluate (S.Q.xy.getD j 0) i⟩
/-- `lambda_z_jk`; `mrx/derham_sequence.py:123-124`. -/
def lamZ (S : Seq K) : Table K :=
  ⟨S.L0.Λ2.n, S.Q.xz.length, fun i j => S.L0.Λ2.evaluate (S.Q.xz.getD j 0) i⟩
/-- `d_lambda_r_jk`; `mrx/derham_sequence.py:125-126`. -/
def dlamR (S : Seq K) : Table K :=
  ⟨S.L0.dΛ0.n, S.Q.xx.length, fun i j => S.L0.dΛ0.evaluate (S.Q.xx.getD j 0) i⟩
/-- `d_lambda_t_jk`; `mrx/derham_sequence.py:127-128`. -/
def dlamT (S : Seq K) : Table K :=
  ⟨S.L0.dΛ1.n, S.Q.xy.length, fun i j => S.L0.dΛ1.evaluate (S.Q.xy.getD j 0) i⟩
/-- `d_lambda_z_jk`; `mrx/derham_sequence.py:129-130`. -/
def dlamZ (S : Seq K) : Table K :=
  ⟨S.L0.dΛ2.n, S.Q.xz.length, fun i j => S.L0.dΛ2.evaluate (S.Q.xz.getD j 0) i⟩

/-- `j2, j1, j3 = unravel_index(j, (Q.ny, Q.nx, Q.nz))`, returned as `(j1, j2, j3)`;
`mrx/derham_sequence.py:146` and the same line in every getter. -/
def unravelQuad (S : Seq K) (j : Nat) : Nat × Nat × Nat :=
  let u := Jax.unravelIndex3 j S.Q.xy.length S.Q.xx.length S.Q.xz.length
  (u.2.1, u.1, u.2.2)

/-- `get_Lambda_0_ijk`; `mrx/derham_sequence.py:132-151`. -/
def getLambda0 (S : Seq K) (i j _k : Nat) : K :=
  let q := S.unravelQuad j
  let a := (S.L0.dims.unravelIndex i).2
  S.lamR.get a.1 q.1 * S.lamT.get a.2.1 q.2.1 * S.lamZ.get a.2.2 q.2.2

/-- `dr_m1 - dr`; `mrx/derham_sequence.py:169-171, 229-231, 316-318` (`nt` is the attribute of the form
whose derivative is taken; the comparison with `nt - 1` is as in the code).
`dr_m1` reads index `i1 - 1` only when `i1 > 0`. -/
def diffR (S : Seq K) (nt i1 j1 : Nat) : K :=
  let dr := if (i1 : Int) = (nt : Int) - 1 then 0 else S.dlamR.get i1 j1
  let drM1 := if 0 < i1 then S.dlamR.get (i1 - 1) j1 else 0
  drM1 - dr

/-- `dtheta_m1 - dtheta`; `mrx/derham_sequence.py:172-174, 232-234, 319-321`. -/
def diffT (S : Seq K) (nt i2 j2 : Nat) : K :=
  let dtM1 := if 0 < i2 then S.dlamT.get (i2 - 1) j2 else S.dlamT.get (nt - 1) j2
  dtM1 - S.dlamT.get i2 j2

/-- `dz_m1 - dz`; `mrx/derham_sequence.py:175-177, 235-237, 322-324` (the wrap-around row is `nt - 1`, as in
the code). -/
def diffZ (S : Seq K) (nt i3 j3 : Nat) : K :=
  let dzM1 := if 0 < i3 then S.dlamZ.get (i3 - 1) j3 else S.dlamZ.get (nt - 1) j3
  dzM1 - S.dlamZ.get i3 j3

/-- `get_d_Lambda_0_ijk`; `mrx/derham_sequence.py:153-185`. -/
def getDLambda0 (S : Seq K) (i j k : Nat) : K :=
  let q := S.unravelQuad j
  let a := (S.L0.dims.unravelIndex i).2
  let nt := S.L0.dims.nt
  if k = 0 then S.diffR nt a.1 q.1 * S.lamT.get a.2.1 q.2.1 * S.lamZ.get a.2.2 q.2.2
  else if k = 1 then S.lamR.get a.1 q.1 * S.diffT nt a.2.1 q.2.1 * S.lamZ.get a.2.2 q.2.2
  else S.lamR.get a.1 q.1 * S.lamT.get a.2.1 q.2.1 * S.diffZ nt a.2.2 q.2.2

/-- `get_Lambda_1_ijk`; `mrx/derham_sequence.py:187-212`. -/
def getLambda1 (S : Seq K) (i j k : Nat) : K :=
  let q := S.unravelQuad j
  let c := (S.L1.dims.unravelIndex i).1
  let a := (S.L1.dims.unravelIndex i).2
  if k = c then
    if k = 0 then S.dlamR.get a.1 q.1 * S.lamT.get a.2.1 q.2.1 * S.lamZ.get a.2.2 q.2.2
    else if k = 1 then S.lamR.get a.1 q.1 * S.dlamT.get a.2.1 q.2.1 * S.lamZ.get a.2.2 q.2.2
    else S.lamR.get a.1 q.1 * S.lamT.get a.2.1 q.2.1 * S.dlamZ.get a.2.2 q.2.2
  else 0

/-- `get_d_Lambda_1_ijk`; `mrx/derham_sequence.py:214-273`. -/
def getDLambda1 (S : Seq K) (i j k : Nat) : K :=
  let q := S.unravelQuad j
  let c := (S.L1.dims.unravelIndex i).1
  let a := (S.L1.dims.unravelIndex i).2
  let nt := S.L1.dims.nt
  let d3dy := S.lamR.get a.1 q.1 * S.diffT nt a.2.1 q.2.1 * S.dlamZ.get a.2.2 q.2.2
  let d2dz := S.lamR.get a.1 q.1 * S.dlamT.get a.2.1 q.2.1 * S.diffZ nt a.2.2 q.2.2
  let d1dz := S.dlamR.get a.1 q.1 * S.lamT.get a.2.1 q.2.1 * S.diffZ nt a.2.2 q.2.2
  let d3dx := S.diffR nt a.1 q.1 * S.lamT.get a.2.1 q.2.1 * S.dlamZ.get a.2.2 q.2.2
  let d2dx := S.diffR nt a.1 q.1 * S.dlamT.get a.2.1 q.2.1 * S.lamZ.get a.2.2 q.2.2
  let d1dy := S.dlamR.get a.1 q.1 * S.diffT nt a.2.1 q.2.1 * S.lamZ.get a.2.2 q.2.2
  if c = 0 then (if k = 0 then 0 else if k = 1 then d1dz else -d1dy)
  else if c = 1 then (if k = 0 then -d2dz else if k = 1 then 0 else d2dx)
  else (if k = 0 then d3dy else if k = 1 then -d3dx else 0)

/-- `get_Lambda_2_ijk`; `mrx/derham_sequence.py:275-299`. -/
def getLambda2 (S : Seq K) (i j k : Nat) : K :=
  let q := S.unravelQuad j
  let c := (S.L2.dims.unravelIndex i).1
  let a := (S.L2.dims.unravelIndex i).2
  if k = c then
    if k = 0 then S.lamR.get a.1 q.1 * S.dlamT.get a.2.1 q.2.1 * S.dlamZ.get a.2.2 q.2.2
    else if k = 1 then S.dlamR.get a.1 q.1 * S.lamT.get a.2.1 q.2.1 * S.dlamZ.get a.2.2 q.2.2
    else S.dlamR.get a.1 q.1 * S.dlamT.get a.2.1 q.2.1 * S.lamZ.get a.2.2 q.2.2
  else 0

/-- `get_d_Lambda_2_ijk`; `mrx/derham_sequence.py:301-337`. -/
def getDLambda2 (S : Seq K) (i j _k : Nat) : K :=
  let q := S.unravelQuad j
  let c := (S.L2.dims.unravelIndex i).1
  let a := (S.L2.dims.unravelIndex i).2
  let nt := S.L2.dims.nt
  if c = 0 then S.diffR nt a.1 q.1 * S.dlamT.get a.2.1 q.2.1 * S.dlamZ.get a.2.2 q.2.2
  else if c = 1 then S.dlamR.get a.1 q.1 * S.diffT nt a.2.1 q.2.1 * S.dlamZ.get a.2.2 q.2.2
  else S.dlamR.get a.1 q.1 * S.dlamT.get a.2.1 q.2.1 * S.diffZ nt a.2.2 q.2.2

/-- `get_Lambda_3_ijk`; `mrx/derham_sequence.py:339-354`. -/
def getLambda3 (S : Seq K) (i j _k : Nat) : K :=
  let q := S.unravelQuad j
  let a := (S.L3.dims.unravelIndex i).2
  S.dlamR.get a.1 q.1 * S.dlamT.get a.2.1 q.2.1 * S.dlamZ.get a.2.2 q.2.2

end Seq
end Mrx
