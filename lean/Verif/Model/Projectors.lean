import Verif.Model.Assembly

/-!
# Model of `mrx/projectors.py`, `mrx/nonlinearities.py` and of `l2_product` (`mrx/utils.py:117-136`)

A Python callable of a logical point is a function on `V3`; an array of one element is a function on `Fin 1`.
-/

namespace Mrx
open Matrix Finset

/-- `l2_product(f, g, Q, F)`; `mrx/utils.py:117-136`. -/
noncomputable def l2Product {d : Nat} (f g : V3 → Fin d → ℝ) (Q : Quad.Rule ℝ) (F : V3 → V3) : ℝ :=
  ∑ i ∈ range Q.w.length, ∑ j : Fin d, f (toV3 (Q.x.getD i 0)) j * g (toV3 (Q.x.getD i 0)) j
    * jacobianDeterminant F (toV3 (Q.x.getD i 0)) * Q.w.getD i 0

namespace DeRham
variable (D : DeRham)

/-- `Q.x[j]`. -/
noncomputable def x (j : Nat) : V3 := toV3 (D.S.Q.x.getD j 0)

/-- `zeroform_projection`; `mrx/projectors.py:68-81`. -/
noncomputable def zeroformProjection (f : V3 → Fin 1 → ℝ) : Fin D.S.L0.dims.n → ℝ :=
  integrateAgainst D.S.getLambda0 D.nq 1 (fun j k => f (D.x j) k * (D.w j * D.g.J j)) D.S.L0.dims.n

/-- `oneform_projection`; `mrx/projectors.py:83-102`. -/
noncomputable def oneformProjection (v : V3 → V3) : Fin D.S.L1.dims.n → ℝ :=
  integrateAgainst D.S.getLambda1 D.nq 3 (fun j k => (inv33 (jacfwd D.F (D.x j)) *ᵥ v (D.x j)) k * (D.w j * D.g.J j))
    D.S.L1.dims.n

/-- `twoform_projection`; `mrx/projectors.py:104-124`. -/
noncomputable def twoformProjection (v : V3 → V3) : Fin D.S.L2.dims.n → ℝ :=
  integrateAgainst D.S.getLambda2 D.nq 3 (fun j k => ((jacfwd D.F (D.x j))ᵀ *ᵥ v (D.x j)) k * D.w j) D.S.L2.dims.n

/-- `threeform_projection`; `mrx/projectors.py:126-139`. -/
noncomputable def threeformProjection (f : V3 → Fin 1 → ℝ) : Fin D.S.L3.dims.n → ℝ :=
  integrateAgainst D.S.getLambda3 D.nq 1 (fun j k => f (D.x j) k * D.w j) D.S.L3.dims.n

/-- `Projector(Seq, 0)(f)`; `mrx/projectors.py:49-60`. -/
noncomputable def projector0 (f : V3 → Fin 1 → ℝ) : Fin D.m0 → ℝ := D.E0 *ᵥ D.zeroformProjection f
/-- `Projector(Seq, 1)(v)`; `mrx/projectors.py:49-62`. -/
noncomputable def projector1 (v : V3 → V3) : Fin D.m1 → ℝ := D.E1 *ᵥ D.oneformProjection v
/-- `Projector(Seq, 2)(v)`; `mrx/projectors.py:49-64`. -/
noncomputable def projector2 (v : V3 → V3) : Fin D.m2 → ℝ := D.E2 *ᵥ D.twoformProjection v
/-- `Projector(Seq, 3)(f)`; `mrx/projectors.py:49-66`. -/
noncomputable def projector3 (f : V3 → Fin 1 → ℝ) : Fin D.m3 → ℝ := D.E3 *ᵥ D.threeformProjection f

/-! ## Cross products -/

/-- The degrees handled by `CrossProductProjection`. -/
inductive Deg where
  | one
  | two
  deriving DecidableEq

/-- The `match` statements of the constructor; `mrx/nonlinearities.py:32-60`. -/
def Deg.ofInt? (n : Int) (name : String) : Except String Deg :=
  if n = 1 then .ok .one else if n = 2 then .ok .two else .error s!"ValueError: {name} must be 1 or 2"

/-- Row count of `E1` or `E2`. -/
def mdim : Deg → Nat
  | .one => D.m1
  | .two => D.m2

/-- `Lambda_1.n` or `Lambda_2.n`; `mrx/nonlinearities.py:36, 40`. -/
def ldim : Deg → Nat
  | .one => D.S.L1.dims.n
  | .two => D.S.L2.dims.n

/-- `En`, `Em`, `Ek`; `mrx/nonlinearities.py:32-60`. -/
def E : (a : Deg) → Matrix (Fin (D.mdim a)) (Fin (D.ldim a)) ℝ
  | .one => D.E1
  | .two => D.E2

/-- `get_Lambda_n_ijk` etc.; `mrx/nonlinearities.py:32-60`. -/
noncomputable def getter : Deg → Getter
  | .one => D.S.getLambda1
  | .two => D.S.getLambda2

/-- `einsum('jkl,jk->jl', A, v)` at one quadrature point. -/
def einsumT (A : M33) (v : V3) : V3 := fun l => ∑ k, A k l * v k

/-- `f_jk` at quadrature point `j`; `mrx/nonlinearities.py:99-134`. -/
noncomputable def crossWeight (n m k : Deg) (j : Nat) (w u : V3) : Except String V3 :=
  match n, m, k with
  | .one, .two, .one => .ok fun a => crossProduct (einsumT (D.g.G j) w) u a * (D.w j / D.g.J j)
  | .one, .one, .one => .ok fun a => crossProduct w u a * D.w j
  | .two, .one, .one => .ok fun a => einsumT (D.g.G j) (crossProduct w u) a * (D.w j / D.g.J j)
  | .two, .two, .one => .ok fun a => crossProduct w (einsumT (D.g.Ginv j) u) a * D.w j
  | .one, .two, .two => .ok fun a => einsumT (D.g.Ginv j) (crossProduct w u) a * D.w j
  | .two, .one, .two => .ok fun a => crossProduct (einsumT (D.g.Ginv j) w) u a * D.w j
  | .two, .two, .two => .ok fun a => crossProduct w u a * (D.w j / D.g.J j)
  | .one, .one, .two => .error "ValueError: Not yet implemented"

/-- The vector inside an `Except`. -/
def orZero : Except String V3 → V3
  | .ok v => v
  | .error _ => 0

/-- `evaluate_at_xq(get_Lambda_m_ijk, Em.T @ w, Q.n, 3)` at point `j`; `mrx/nonlinearities.py:88-93`. -/
noncomputable def fieldAt (a : Deg) (w : Fin (D.mdim a) → ℝ) (j : Nat) : V3 :=
  fun k => evaluateAtXq (D.getter a) ((D.E a)ᵀ *ᵥ w) j k

/-- `projection(w, u)` and `__call__(w, u)` after a successful construction; `mrx/nonlinearities.py:62-135`.
(The exception depends only on the degrees, not on the quadrature point.) -/
noncomputable def crossProductOf (n m k : Deg) (w : Fin (D.mdim m) → ℝ) (u : Fin (D.mdim k) → ℝ) :
    Except String (Fin (D.mdim n) → ℝ) :=
  match D.crossWeight n m k 0 0 0 with
  | .error e => .error e
  | .ok _ => .ok (D.E n *ᵥ integrateAgainst (D.getter n) D.nq 3
    (fun j => orZero (D.crossWeight n m k j (D.fieldAt m w j) (D.fieldAt k u j))) (D.ldim n))

/-- `CrossProductProjection(n, m, k, Seq)`; `mrx/nonlinearities.py:14-60`. -/
def crossProductInit (n m k : Int) : Except String (Deg × Deg × Deg) :=
  match Deg.ofInt? n "n" with
  | .error e => .error e
  | .ok a => match Deg.ofInt? m "m" with
    | .error e => .error e
    | .ok b => match Deg.ofInt? k "k" with
      | .error e => .error e
      | .ok c => .ok (a, b, c)

end DeRham
end Mrx
