import Mathlib.Data.Real.Basic

/-!
# Exact reals with NaN and infinities

Float64 scalars where only overflow/NaN control flow matters: values are exact real numbers, `+∞`, `-∞` or NaN; rounding and signed
zeros are not modelled. Comparisons with NaN are false, as in IEEE 754.
-/

namespace Mrx

/-- A floating-point scalar without rounding. -/
inductive FV where
  | nan
  | posInf
  | negInf
  | fin (r : ℝ)

namespace FV

/-- `jnp.isnan`. -/
def isnan : FV → Prop
  | nan => True
  | _ => False

/-- `a < b`. -/
def lt : FV → FV → Prop
  | nan, _ => False
  | _, nan => False
  | posInf, _ => False
  | negInf, negInf => False
  | negInf, _ => True
  | fin _, negInf => False
  | fin _, posInf => True
  | fin a, fin b => a < b

/-- `a > b`. -/
def gt (a b : FV) : Prop := lt b a

/-- `a <= b`: false when one of them is NaN. -/
def le : FV → FV → Prop
  | nan, _ => False
  | _, nan => False
  | negInf, _ => True
  | _, posInf => True
  | posInf, _ => False
  | fin _, negInf => False
  | fin a, fin b => a ≤ b

/-- `a == b`: false when one of them is NaN. -/
def eq : FV → FV → Prop
  | posInf, posInf => True
  | negInf, negInf => True
  | fin a, fin b => a = b
  | _, _ => False

/-- `a + b`. -/
def add : FV → FV → FV
  | nan, _ => nan
  | _, nan => nan
  | posInf, negInf => nan
  | negInf, posInf => nan
  | posInf, _ => posInf
  | negInf, _ => negInf
  | fin _, posInf => posInf
  | fin _, negInf => negInf
  | fin a, fin b => fin (a + b)

open Classical in
/-- `a / b` (zero has no sign here: `x / 0` is an infinity with the sign of `x`). -/
noncomputable def div : FV → FV → FV
  | nan, _ => nan
  | _, nan => nan
  | fin _, posInf => fin 0
  | fin _, negInf => fin 0
  | fin a, fin b => if b = 0 then (if a = 0 then nan else if 0 < a then posInf else negInf) else fin (a / b)
  | posInf, fin b => if b < 0 then negInf else posInf
  | negInf, fin b => if b < 0 then posInf else negInf
  | posInf, _ => nan
  | negInf, _ => nan

/-- `jnp.clip(a, 0.0, 1.0)`. -/
noncomputable def clip01 : FV → FV
  | nan => nan
  | posInf => fin 1
  | negInf => fin 0
  | fin a => fin (min (max a 0) 1)

theorem not_gt_not_nan {a : FV} {t : ℝ} (h1 : ¬ gt a (fin t)) (h2 : ¬ a.isnan) : a.le (fin t) := by
  cases a <;> simp_all [gt, lt, le, isnan]

theorem le_iff {a : FV} {t : ℝ} : a.le (fin t) ↔ ¬ gt a (fin t) ∧ ¬ a.isnan := by
  cases a <;> simp [gt, lt, le, isnan]

end FV
end Mrx
