import Mathlib.Algebra.Order.Field.Basic
import Mathlib.Algebra.BigOperators.Group.List.Basic
import Mathlib.Algebra.Order.AbsoluteValue.Basic

/-!
# The NumPy / JAX primitives used by mrx

These are the *assumed* semantics of the library calls (trusted base, see DESIGN.md).
Floating point numbers are idealised as elements of an ordered field.
-/

namespace Mrx.Jax

variable {K : Type*}

/-- `x[i]` on a JAX array: a negative index wraps once, then the index is clamped into range
(JAX's documented out-of-bounds gather mode for reads).  Reading an empty array gives `0`
(JAX raises; no modelled call site does it). -/
def get [Zero K] (l : List K) (i : Int) : K :=
  let j : Int := if i < 0 then i + l.length else i
  l.getD (min j.toNat (l.length - 1)) 0

/-- `l[a:b]`, Python slice with possibly negative bounds (wrapped once, then clipped). -/
def slice {α : Type*} (l : List α) (a b : Int) : List α :=
  let wrap : Int → Nat := fun i => min (if i < 0 then i + l.length else i).toNat l.length
  (l.take (wrap b)).drop (wrap a)

/-- `jax.lax.dynamic_slice(l, (start,), (size,))`: a negative start wraps, then the start index is
clamped so that the slice fits. -/
def dynamicSlice {α : Type*} (l : List α) (start : Int) (size : Nat) : List α :=
  let s : Int := if start < 0 then start + l.length else start
  (l.drop (min s.toNat (l.length - size))).take size

/-- `jnp.linspace(0, 1, m)`. -/
def linspace01 (K : Type*) [Field K] (m : Nat) : List K :=
  (List.range m).map fun (i : Nat) => (i : K) / ((m - 1 : Nat) : K)

/-- `jnp.isclose(a, b)` with the default tolerances `rtol = 1e-5`, `atol = 1e-8`. -/
def isclose [Field K] [LinearOrder K] (a b : K) : Prop :=
  |a - b| ≤ 1 / 10 ^ 8 + 1 / 10 ^ 5 * |b|

instance [Field K] [LinearOrder K] (a b : K) : Decidable (isclose a b) := by
  unfold isclose; infer_instance

/-- `jnp.unravel_index(i, (a, b, c))`: the flat index is clipped to `a*b*c - 1`, then decoded in
row-major (C) order. -/
def unravelIndex3 (i a b c : Nat) : Nat × Nat × Nat :=
  let j := min i (a * b * c - 1)
  (j / c / b % a, j / c % b, j % c)

/-- `jnp.ravel_multi_index((i, j, k), (a, b, c), mode="clip")`: each index is clipped into its range. -/
def ravelMultiIndex3 (i j k a b c : Nat) : Nat :=
  (min i (a - 1) * b + min j (b - 1)) * c + min k (c - 1)

end Mrx.Jax
