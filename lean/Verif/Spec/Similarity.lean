import Verif.Model.Relaxation

/-!
# Rigid motions and changes of units

`similarity s R b F` is the device `F` rotated by `R`, measured in units `s` times smaller and moved by `b`.
-/

namespace Mrx.Spec
open Matrix Mrx

/-- A rotation of space. -/
structure IsRotation (R : M33) : Prop where
  orth : Rᵀ * R = 1
  det : R.det = 1

/-- The map followed by a rotation, a scaling of lengths by `s` and a shift. -/
def similarity (s : ℝ) (R : M33) (b : V3) (F : V3 → V3) : V3 → V3 := fun x => s • (R *ᵥ F x) + b

/-- The same sequence on another map: what the constructor does with `F`. -/
noncomputable abbrev withMap (D : DeRham) (F : V3 → V3) : DeRham := { D with F := F, g := Metric.ofMap F (D.S.Q.x.map toV3) }

end Mrx.Spec
