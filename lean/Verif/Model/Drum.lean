import Verif.Model.Assembly
import Verif.Model.Mappings

/-!
# Model of the computations of `scripts/interactive/drumshape.py`

`jnp.linalg.cholesky` and `jnp.linalg.eigh` are arguments, specified in Spec/Eigh.lean and Spec/Cholesky.lean. The optimiser (optax) and
the plots are not modelled.
-/

namespace Mrx
open Matrix Finset

/-- `generalized_eigh`; `scripts/interactive/drumshape.py:34-59`. -/
noncomputable def generalizedEigh {n : Nat} (chol : Matrix (Fin n) (Fin n) ℝ → Matrix (Fin n) (Fin n) ℝ)
    (eigh : Matrix (Fin n) (Fin n) ℝ → (Fin n → ℝ) × Matrix (Fin n) (Fin n) ℝ) (A B : Matrix (Fin n) (Fin n) ℝ) :
    (Fin n → ℝ) × Matrix (Fin n) (Fin n) ℝ :=
  let L := chol (B + (1e-12 : ℝ) • 1)
  let Linv := L⁻¹
  let C := Linv * A * Linvᵀ
  let r := eigh C
  (r.1, Linvᵀ * r.2)

/-- `a_h(χ)[0]`: the radius function `DiscreteFunction(a_hat, Λmap)` at `[χ, 0, 0]`, where
`Λmap = DifferentialForm(0, (n_map, 1, 1), (p_map, 0, 0), ('periodic', 'constant', 'constant'))`; `scripts/interactive/drumshape.py:84-92`. -/
noncomputable def drumRadius (Λmap : Form ℝ) (aHat : Nat → ℝ) (χ : ℝ) : ℝ :=
  discreteFunction Λmap (fun i : Fin Λmap.dims.n => aHat i) 1 (χ, 0, 0) 0

/-- `K` of `get_evs` for the map `F`; `scripts/interactive/drumshape.py:99-121`. -/
noncomputable def drumK (D : DeRham) (F : V3 → V3) : Matrix (Fin D.m0) (Fin D.m0) ℝ :=
  let g := Metric.ofMap F (D.S.Q.x.map toV3)
  D.E0 * assemble D.S.getDLambda0 D.S.getDLambda0 D.nq 3 (fun j => fun k l => g.Ginv j k l * g.J j * D.w j) D.S.L0.dims.n D.S.L0.dims.n * D.E0ᵀ

/-- `M` of `get_evs` for the map `F`; `scripts/interactive/drumshape.py:123-128`. -/
noncomputable def drumM (D : DeRham) (F : V3 → V3) : Matrix (Fin D.m0) (Fin D.m0) ℝ :=
  let g := Metric.ofMap F (D.S.Q.x.map toV3)
  D.E0 * assemble D.S.getLambda0 D.S.getLambda0 D.nq 1 (fun j => fun _ _ => g.J j * D.w j) D.S.L0.dims.n D.S.L0.dims.n * D.E0ᵀ

/-- `get_evs(a_hat, n_map, p_map, Seq)`; `scripts/interactive/drumshape.py:65-131`. -/
noncomputable def getEvs (D : DeRham) (chol : Matrix (Fin D.m0) (Fin D.m0) ℝ → Matrix (Fin D.m0) (Fin D.m0) ℝ)
    (eigh : Matrix (Fin D.m0) (Fin D.m0) ℝ → (Fin D.m0 → ℝ) × Matrix (Fin D.m0) (Fin D.m0) ℝ) (Λmap : Form ℝ) (aHat : Nat → ℝ) :
    (Fin D.m0 → ℝ) × Matrix (Fin D.m0) (Fin D.m0) ℝ :=
  let F := drumshapeMap (drumRadius Λmap aHat)
  generalizedEigh chol eigh (drumK D F) (drumM D F)

/-- `fit_evs`: the loss, given the first `k` eigenvalues and targets; `scripts/interactive/drumshape.py:460-474`
(the term `0.0 * sum(a_hat**2)` is zero). -/
noncomputable def fitEvs {n : Nat} (kMax : Nat) (evs target : Fin n → ℝ) : ℝ :=
  ∑ k ∈ univ.filter (fun k : Fin n => k.1 < kMax), (evs k - target k) ^ 2 / target k ^ 2

end Mrx
