import Verif.Model.Forms
import Mathlib.Analysis.SpecialFunctions.Trigonometric.Basic

/-!
# Coefficient arrays of forms: incidence (exterior derivative) and polar regularity

A coefficient array `V c i j l` holds the coefficient of component `c` and radial/poloidal/axial indices
`(i, j, l)`.
-/

namespace Mrx.Spec
open Finset

/-- Coefficient array of a flat coefficient vector of a form with sizes `d` (zero outside the vector). -/
noncomputable def coef (d : Dims) (v : Fin d.n → ℝ) (c i j l : Nat) : ℝ :=
  if h : d.ravelIndex c i j l < d.n then v ⟨d.ravelIndex c i j l, h⟩ else 0

/-- Differences in the three directions, cyclic in each index (in a clamped direction the last difference is
never used, because the derivative has one coefficient less). -/
def Δr (n : Nat) (C : Nat → Nat → Nat → ℝ) (i j l : Nat) : ℝ := C ((i + 1) % n) j l - C i j l
def Δt (n : Nat) (C : Nat → Nat → Nat → ℝ) (i j l : Nat) : ℝ := C i ((j + 1) % n) l - C i j l
def Δz (n : Nat) (C : Nat → Nat → Nat → ℝ) (i j l : Nat) : ℝ := C i j ((l + 1) % n) - C i j l

/-- Exterior derivative of a coefficient array of degree `d.k`: gradient, curl, divergence with partial
derivatives replaced by differences. -/
def extDeriv (d : Dims) (V : Nat → Nat → Nat → Nat → ℝ) (c : Nat) : Nat → Nat → Nat → ℝ := fun i j l =>
  if d.k = 0 then
    if c = 0 then Δr d.nr (V 0) i j l else if c = 1 then Δt d.nt (V 0) i j l else Δz d.nz (V 0) i j l
  else if d.k = 1 then
    if c = 0 then Δt d.nt (V 2) i j l - Δz d.nz (V 1) i j l
    else if c = 1 then Δz d.nz (V 0) i j l - Δr d.nr (V 2) i j l
    else Δr d.nr (V 1) i j l - Δt d.nt (V 0) i j l
  else Δr d.nr (V 0) i j l + Δt d.nt (V 1) i j l + Δz d.nz (V 2) i j l

/-- Poloidal angle of control point number `j` of `nt`. -/
noncomputable def ang (nt j : Nat) : ℝ := 2 * Real.pi * j / nt

/-- Scalar: on each axial slice the innermost ring is constant, `a`, and the next ring is an affine function
`a + b cos θ + c sin θ` of the disc coordinates; with a Dirichlet condition the outermost ring vanishes. -/
def Polar0 (nr nt nz : Nat) (dirichlet : Bool) (C : Nat → Nat → Nat → ℝ) : Prop :=
  (∃ a b c : Nat → ℝ, ∀ j < nt, ∀ l < nz, C 0 j l = a l ∧
    C 1 j l = a l + b l * Real.cos (ang nt j) + c l * Real.sin (ang nt j)) ∧
  (dirichlet = true → ∀ j < nt, ∀ l < nz, C (nr - 1) j l = 0)

/-- Radial and poloidal components of a 1-form: near the axis the components of the constant covector
`(b, c)` of the disc; tangential components vanish on the outermost ring with a Dirichlet condition. -/
def Polar1 (nr nt nz : Nat) (dirichlet : Bool) (Cr Ct : Nat → Nat → Nat → ℝ) : Prop :=
  (∃ b c : Nat → ℝ, ∀ j < nt, ∀ l < nz,
    Cr 0 j l = b l * Real.cos (ang nt j) + c l * Real.sin (ang nt j) ∧
    Ct 0 j l = 0 ∧
    Ct 1 j l = b l * (Real.cos (ang nt (j + 1)) - Real.cos (ang nt j))
      + c l * (Real.sin (ang nt (j + 1)) - Real.sin (ang nt j))) ∧
  (dirichlet = true → ∀ j < nt, ∀ l < nz, Ct (nr - 1) j l = 0)

/-- Radial and poloidal components of a 2-form. -/
def Polar2 (nr nt nz : Nat) (dirichlet : Bool) (Cr Ct : Nat → Nat → Nat → ℝ) : Prop :=
  (∃ b c : Nat → ℝ, ∀ j < nt, ∀ l < nz,
    Cr 0 j l = 0 ∧
    Cr 1 j l = b l * (Real.cos (ang nt (j + 1)) - Real.cos (ang nt j))
      + c l * (Real.sin (ang nt (j + 1)) - Real.sin (ang nt j)) ∧
    Ct 0 j l = -(b l * Real.cos (ang nt j) + c l * Real.sin (ang nt j))) ∧
  (dirichlet = true → ∀ j < nt, ∀ l < nz, Cr (nr - 1) j l = 0)

/-- Axial component of a 2-form and 3-forms: the innermost ring vanishes. -/
def Polar3 (nt nz : Nat) (C : Nat → Nat → Nat → ℝ) : Prop := ∀ j < nt, ∀ l < nz, C 0 j l = 0

/-- Polar regularity of a `k`-form (`k = -1`: three scalars); `dz` is the axial size of the axial component of
a 1-form. -/
def PolarForm (k : Int) (nr nt nz dz : Nat) (dirichlet : Bool) (V : Nat → Nat → Nat → Nat → ℝ) : Prop :=
  if k = 0 then Polar0 nr nt nz dirichlet (V 0)
  else if k = 1 then Polar1 nr nt nz dirichlet (V 0) (V 1) ∧ Polar0 nr nt dz dirichlet (V 2)
  else if k = 2 then Polar2 nr nt nz dirichlet (V 0) (V 1) ∧ Polar3 nt nz (V 2)
  else if k = 3 then Polar3 nt nz (V 0)
  else ∀ c < 3, Polar0 nr nt nz dirichlet (V c)

end Mrx.Spec
