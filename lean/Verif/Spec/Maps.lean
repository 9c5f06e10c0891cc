import Mathlib.Analysis.SpecialFunctions.Trigonometric.Basic

/-! # What the coordinate maps have to satisfy -/

namespace Mrx.Spec
open Real

/-- Adding a whole turn to coordinate `j` does not change the value. -/
def PeriodicIn {α : Type} (j : Fin 3) (f : (Fin 3 → ℝ) → α) : Prop := ∀ x, f (x + Pi.single j 1) = f x

/-- Rotation about the third axis by the angle `φ`, in the direction in which the toroidal angle of the maps grows
(`(1, 0, 0) ↦ (cos φ, −sin φ, 0)`). -/
noncomputable def rotate (φ : ℝ) (y : Fin 3 → ℝ) : Fin 3 → ℝ :=
  ![y 0 * cos φ + y 1 * sin φ, -y 0 * sin φ + y 1 * cos φ, y 2]

/-- The point with major radius `R`, toroidal angle `φ` and height `Z`. -/
noncomputable def cylindrical (R φ Z : ℝ) : Fin 3 → ℝ := ![R * cos φ, -R * sin φ, Z]

/-- The distance from the third axis. -/
noncomputable def majorRadius (y : Fin 3 → ℝ) : ℝ := √ (y 0 ^ 2 + y 1 ^ 2)

end Mrx.Spec
