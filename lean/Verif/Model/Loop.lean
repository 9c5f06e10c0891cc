import Mathlib.Logic.Function.Iterate
import Mathlib.Data.Int.Order.Basic

/-!
# `jax.lax.while_loop`

`whileLoop cond body fuel s` runs the loop for at most `fuel` evaluations of the condition; `none` means that it has not stopped yet.
`jax.lax.while_loop(cond, body, s)` returns `r` iff this is `some r` for some `fuel`, and does not terminate if it is `none` for
every `fuel`.
-/

namespace Mrx

open Classical in
/-- `jax.lax.while_loop`; used in `mrx/iterative_solvers.py:72`, `mrx/relaxation.py:511`, `mrx/mappings.py:412`. -/
noncomputable def whileLoop {σ : Type} (cond : σ → Prop) (body : σ → σ) : Nat → σ → Option σ
  | 0, _ => none
  | fuel + 1, s => if cond s then whileLoop cond body fuel (body s) else some s

end Mrx
