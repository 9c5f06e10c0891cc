import Verif.Model.Projectors

/-!
# The physical fields of coefficient vectors

`DiscreteFunction(u, Lambda_k, E_k)` is the logical field of the coefficient vector `u`; its `Pushforward` is the field in
Cartesian components.
-/

namespace Mrx.DeRham
variable (D : DeRham)

/-- The triple of a point. -/
def fromV3 (y : V3) : ℝ × ℝ × ℝ := (y 0, y 1, y 2)

/-- Logical 0-form with coefficients `u`. -/
noncomputable def form0 (u : Fin D.m0 → ℝ) (y : V3) : Fin 1 → ℝ := fun k => discreteFunction D.S.L0 u D.E0 (fromV3 y) k
/-- Logical 1-form. -/
noncomputable def form1 (u : Fin D.m1 → ℝ) (y : V3) : V3 := fun k => discreteFunction D.S.L1 u D.E1 (fromV3 y) k
/-- Logical 2-form. -/
noncomputable def form2 (u : Fin D.m2 → ℝ) (y : V3) : V3 := fun k => discreteFunction D.S.L2 u D.E2 (fromV3 y) k
/-- Logical 3-form. -/
noncomputable def form3 (u : Fin D.m3 → ℝ) (y : V3) : Fin 1 → ℝ := fun k => discreteFunction D.S.L3 u D.E3 (fromV3 y) k

/-- The physical scalar field of a 0-form. -/
noncomputable def phys0 (u : Fin D.m0 → ℝ) (y : V3) : Fin 1 → ℝ := (Pushforward.scalar 0 (D.form0 u) D.F y).getD 0
/-- The physical vector field of a 1-form. -/
noncomputable def phys1 (u : Fin D.m1 → ℝ) (y : V3) : V3 := (Pushforward.vector 1 (D.form1 u) D.F y).getD 0
/-- The physical vector field of a 2-form. -/
noncomputable def phys2 (u : Fin D.m2 → ℝ) (y : V3) : V3 := (Pushforward.vector 2 (D.form2 u) D.F y).getD 0
/-- The physical density of a 3-form. -/
noncomputable def phys3 (u : Fin D.m3 → ℝ) (y : V3) : Fin 1 → ℝ := (Pushforward.scalar 3 (D.form3 u) D.F y).getD 0

/-- The physical field of a 1- or 2-form. -/
noncomputable def phys : (a : Deg) → (Fin (D.mdim a) → ℝ) → V3 → V3
  | .one => D.phys1
  | .two => D.phys2

end Mrx.DeRham
