import Mathlib.Algebra.Order.Field.Basic
import Mathlib.Algebra.BigOperators.Group.Finset.Basic

/-!
# Specification: the textbook Cox-de Boor recursion

Independent of the model of the code.  A knot sequence is a function `τ : ℕ → K`; division by zero
is `0`, the usual convention for repeated knots.
-/

namespace Mrx.Spec

variable {K : Type*} [Field K] [LinearOrder K]

/-- `N τ p i x`: the `i`-th B-spline of degree `p` over the knots `τ` (de Boor). -/
def N (τ : Nat → K) : Nat → Nat → K → K
  | 0, i, x => if τ i ≤ x ∧ x < τ (i + 1) then 1 else 0
  | p + 1, i, x =>
      (x - τ i) / (τ (i + p + 1) - τ i) * N τ p i x
        + (τ (i + p + 2) - x) / (τ (i + p + 2) - τ (i + 1)) * N τ p (i + 1) x

/-- The uniform clamped (open) knot vector of `n` splines of degree `p` on `[0,1]`:
`p+1` zeros, interior knots `k/(n-p)`, `p+1` ones. -/
def clampedKnot (K : Type*) [Field K] [LinearOrder K] (n p k : Nat) : K :=
  if k ≤ p then 0 else if n ≤ k then 1 else ((k - p : Nat) : K) / ((n - p : Nat) : K)

/-- The uniform periodic knot sequence of `n` splines of degree `p` on `[0,1]`: `(k-p)/n`. -/
def periodicKnot (K : Type*) [Field K] (n p k : Nat) : K := ((k : K) - (p : K)) / (n : K)

end Mrx.Spec
