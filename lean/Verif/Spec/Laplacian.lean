import Mathlib.Analysis.Calculus.Deriv.Basic
import Mathlib.Analysis.Calculus.FDeriv.Pi

/-! # Laplacian, divergence and curl of fields on `ℝ³` in Cartesian coordinates -/

namespace Mrx.Spec
open Topology

/-- The function `U` on the line through `y` parallel to axis `i`. -/
def axisLine (U : (Fin 3 → ℝ) → ℝ) (i : Fin 3) (y : Fin 3 → ℝ) (t : ℝ) : ℝ := U (Function.update y i t)

/-- `∂U/∂y_i = v` at `y`. -/
def HasPD (U : (Fin 3 → ℝ) → ℝ) (i : Fin 3) (v : ℝ) (y : Fin 3 → ℝ) : Prop := HasDerivAt (axisLine U i y) v (y i)

/-- `U` has first partial derivatives `g i` near `y`, these have partial derivatives at `y`, and
`∂²U/∂y_0² + ∂²U/∂y_1² + ∂²U/∂y_2² = v` at `y`. -/
def HasLaplacian (U : (Fin 3 → ℝ) → ℝ) (v : ℝ) (y : Fin 3 → ℝ) : Prop :=
  ∃ (g : Fin 3 → (Fin 3 → ℝ) → ℝ) (h : Fin 3 → ℝ), (∀ᶠ z in 𝓝 y, ∀ i, HasPD U i (g i z) z) ∧ (∀ i, HasPD (g i) i (h i) y) ∧ v = h 0 + h 1 + h 2

/-- The vector field `B` has divergence `v` at `y`. -/
def HasDivergence (B : (Fin 3 → ℝ) → Fin 3 → ℝ) (v : ℝ) (y : Fin 3 → ℝ) : Prop :=
  ∃ d : Fin 3 → ℝ, (∀ i, HasPD (fun z => B z i) i (d i) y) ∧ v = d 0 + d 1 + d 2

/-- The vector field `B` has curl `j` at `y`. -/
def HasCurl (B : (Fin 3 → ℝ) → Fin 3 → ℝ) (j : Fin 3 → ℝ) (y : Fin 3 → ℝ) : Prop :=
  ∃ d : Fin 3 → Fin 3 → ℝ, (∀ a i, HasPD (fun z => B z a) i (d a i) y) ∧ j = ![d 2 1 - d 1 2, d 0 2 - d 2 0, d 1 0 - d 0 1]

/-- The function `p` has gradient `g` at `y`. -/
def HasGradientAt3 (p : (Fin 3 → ℝ) → ℝ) (g : Fin 3 → ℝ) (y : Fin 3 → ℝ) : Prop := ∀ i, HasPD p i (g i) y

end Mrx.Spec
