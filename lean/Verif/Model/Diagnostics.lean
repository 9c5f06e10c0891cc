import Verif.Model.Relaxation
import Verif.Spec.Fields

/-!
# Model of `MRXDiagnostics.pressure` (`mrx/relaxation.py:174-208`)

A division `0 / 0` gives NaN, which makes the whole result NaN: this is the outcome `none`.
-/

namespace Mrx
open Matrix

namespace DeRham
variable (D : DeRham)

/-- `JxH_hat` of `MRXDiagnostics.pressure`; `mrx/relaxation.py:189-192`. -/
noncomputable def lorentz (B : Fin D.m2 → ℝ) : Fin D.m2 → ℝ := D.M2⁻¹ *ᵥ D.P1x1to2 (D.weakCurl *ᵥ B) (D.P12 *ᵥ B)

/-- `pressure(B_hat)` when `force_free` is false; `mrx/relaxation.py:188-193`. -/
noncomputable def pressure (B : Fin D.m2 → ℝ) : Fin D.m0 → ℝ := -(D.dd0⁻¹ *ᵥ (D.P03 *ᵥ (D.strongDiv *ᵥ D.lorentz B)))

/-- `lmbda(x)`; `mrx/relaxation.py:200-203`. -/
noncomputable def lmbda (B : Fin D.m2 → ℝ) (x : V3) : Fin 1 → ℝ :=
  let DFx := jacfwd D.F x
  let Bx := D.form2 B x
  fun _ => (D.form1 (D.weakCurl *ᵥ B) x ⬝ᵥ Bx) / ((DFx *ᵥ Bx) ⬝ᵥ DFx *ᵥ Bx) * DFx.det

open Classical in
/-- `pressure(B_hat)` when `force_free` is true; `mrx/relaxation.py:194-204`. The denominator of `lmbda` vanishes only with `DF B`; where
`B` vanishes the quotient is `0 / 0`. -/
noncomputable def pressureForceFree (B : Fin D.m2 → ℝ) : Option (Fin D.m0 → ℝ) :=
  if ∃ j < D.nq, (jacfwd D.F (D.x j) *ᵥ D.form2 B (D.x j)) ⬝ᵥ jacfwd D.F (D.x j) *ᵥ D.form2 B (D.x j) = 0 then none
  else some (D.M0⁻¹ *ᵥ D.projector0 (D.lmbda B))

end DeRham
end Mrx
