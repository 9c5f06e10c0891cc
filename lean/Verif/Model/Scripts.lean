import Verif.Model.Relaxation
import Verif.Model.Diagnostics

/-!
# Model of what the scripts and tutorials do with a `DeRhamSequence`

`scripts/config_scripts/{solovev,iter_islands,stell}.py` (initial fields, initial state, final report),
`scripts/tutorials/{polar_poisson,toroid_poisson,mixed_polar_poisson}.py` (Poisson problems), `scripts/interactive/toroid_cavity.py`
(Maxwell eigenvalues) and `test/test_cylinder_vector_poisson.py` (vector Poisson problem with a thresholded pseudo-inverse).

Simplification: arrays are exact real vectors; dividing by a norm that is 0 gives NaN in the code and the zero vector here. The results of
eigenvalue solvers are parameters, constrained by `Spec/Eigh.lean`.
-/

namespace Mrx
open Matrix Finset

/-- The matrix `jnp.linalg.eigh(A)` works with (`symmetrize_input=True` by default). -/
noncomputable def symmetrize {n : Nat} (A : Matrix (Fin n) (Fin n) ℝ) : Matrix (Fin n) (Fin n) ℝ := (1 / 2 : ℝ) • (A + Aᵀ)

namespace DeRham
variable (D : DeRham)

/-- `B / norm_2(B, Seq)`; `scripts/config_scripts/solovev.py:87`, `iter_islands.py:99`, `stell.py:96`. -/
noncomputable def normalize (B : Fin D.m2 → ℝ) : Fin D.m2 → ℝ := (D.norm2 B)⁻¹ • B

/-- `B_harm = eigh(M2 @ dd2)[1][:, 0]`, normalised; `scripts/config_scripts/solovev.py:86-87`. `V` is the matrix of eigenvectors. -/
noncomputable def harmonicStart (V : Matrix (Fin D.m2) (Fin D.m2) ℝ) (k : Fin D.m2) : Fin D.m2 → ℝ := D.normalize (V.col k)

/-- `P_Leray @ solve(M2, P2(B))`; `scripts/config_scripts/iter_islands.py:97-98`, `stell.py:94-95`. `X` is the pseudo-inverse inside
`P_Leray`. -/
noncomputable def divfreeProjection (X : Matrix (Fin D.m3) (Fin D.m3) ℝ) (B : V3 → V3) : Fin D.m2 → ℝ :=
  D.leray X *ᵥ (D.M2⁻¹ *ᵥ D.projector2 B)

open Classical in
/-- The initial field of `scripts/config_scripts/iter_islands.py:97-107` and `stell.py:94-104`. -/
noncomputable def projectedStart (X : Matrix (Fin D.m3) (Fin D.m3) ℝ) (applyPertAfter : Int) (strength : ℝ) (B dB : V3 → V3) :
    Fin D.m2 → ℝ :=
  let B0 := D.normalize (D.divfreeProjection X B)
  if applyPertAfter = 0 ∧ strength > 0 then B0 + strength • D.normalize (D.divfreeProjection X dB) else B0

/-- `solve(M0 @ dd0, P0(f))`; `scripts/tutorials/polar_poisson.py:94`, `toroid_poisson.py:91`. -/
noncomputable def poisson0 (f : V3 → Fin 1 → ℝ) : Fin D.m0 → ℝ := (D.M0 * D.dd0)⁻¹ *ᵥ D.projector0 f

/-- `solve(M3 @ dd3, P3(f))`; `scripts/tutorials/mixed_polar_poisson.py:101`. -/
noncomputable def poisson3 (f : V3 → Fin 1 → ℝ) : Fin D.m3 → ℝ := (D.M3 * D.dd3)⁻¹ *ᵥ D.projector3 f

/-- `einsum('ik,ik,i,i->', f, f, J_j, w) ** 0.5`; `scripts/tutorials/polar_poisson.py:102-103`, `toroid_poisson.py:99-100`, `mixed_polar_poisson.py:110-111`. -/
noncomputable def l2Norm (f : V3 → Fin 1 → ℝ) : ℝ :=
  Real.sqrt (∑ i ∈ range D.nq, ∑ k : Fin 1, f (D.x i) k * f (D.x i) k * D.g.J i * D.w i)

/-- The relative error `get_err` returns; `scripts/tutorials/polar_poisson.py:97-105`, `toroid_poisson.py:94-102`, `mixed_polar_poisson.py:105-113`. -/
noncomputable def relativeError (u uh : V3 → Fin 1 → ℝ) : ℝ := D.l2Norm (fun x => u x - uh x) / D.l2Norm u

/-- The double curl matrix `M1 @ (dd1 + strong_grad @ weak_div)`; `scripts/interactive/toroid_cavity.py:55`, `cylinder_cavity.py:62-63`. -/
noncomputable def doubleCurl : Matrix (Fin D.m1) (Fin D.m1) ℝ := D.M1 * (D.dd1 + D.strongGrad * D.weakDiv)

/-- The matrix of `scripts/interactive/cylinder_vector_poisson.py:84-103`: `L = C @ solve(M1, C.T) + divdiv` with `C = strong_curl` and
`divdiv = M2 @ (dd2 - strong_curl @ weak_curl)`. -/
noncomputable def vectorPoissonMatrix : Matrix (Fin D.m2) (Fin D.m2) ℝ :=
  D.strongCurl * solve D.M1 D.strongCurlᵀ + D.M2 * (D.dd2 - D.strongCurl * D.weakCurl)

/-- The error `get_err` returns; `scripts/interactive/cylinder_vector_poisson.py:118-122`, `test/test_cylinder_vector_poisson.py:97-103`. -/
noncomputable def coefficientError (u v : Fin D.m2 → ℝ) : ℝ := Real.sqrt (((u - v) ⬝ᵥ D.M2 *ᵥ (u - v)) / (v ⬝ᵥ D.M2 *ᵥ v))

end DeRham

open Classical in
/-- `(eigvecs * where(|eigvals| > tol, 1/eigvals, 0)) @ eigvecs.T`; `test/test_cylinder_vector_poisson.py:80-88`. -/
noncomputable def eighPinv {n : Nat} (w : Fin n → ℝ) (V : Matrix (Fin n) (Fin n) ℝ) (tol : ℝ) : Matrix (Fin n) (Fin n) ℝ :=
  V * diagonal (fun k => if |w k| > tol then 1 / w k else 0) * Vᵀ

/-- `State(B, B, dt, eta, Seq.M2, 0, 0, 0, 0)`; `scripts/config_scripts/solovev.py:91`, `iter_islands.py:110-111`, `stell.py:108`. -/
noncomputable def Stepper.initState (T : Stepper) (B : T.Field) (dt eta : ℝ) : T.St :=
  ⟨B, B, dt, eta, T.D.M2, 0, .fin 0, .fin 0, .fin 0⟩

/-- The average time per step that the scripts report between the relaxation loop and saving; `scripts/config_scripts/solovev.py:97-101`,
`iter_islands.py:119-124`, `stell.py:115-121`. An exception is raised when the last recorded iteration is 0 (or nothing is recorded), and
then nothing is saved. -/
noncomputable def averageStepTime (final setupDone : ℝ) (iterations : List Nat) : Except String ℝ :=
  match iterations.getLast? with
  | none => .error "IndexError: list index out of range"
  | some 0 => .error "ZeroDivisionError: float division by zero"
  | some (i + 1) => .ok ((final - setupDone) / ((i + 1 : Nat) : ℝ))

end Mrx
