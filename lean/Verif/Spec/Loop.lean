import Mathlib.Data.Nat.Init

/-! # What it means for a computation with fuel to return -/

namespace Mrx.Spec

/-- The computation returns `r`: with enough fuel the result is `r`, whatever the amount. -/
def Returns {α : Type} (run : Nat → Option α) (r : α) : Prop := ∃ N, ∀ fuel ≥ N, run fuel = some r

end Mrx.Spec
