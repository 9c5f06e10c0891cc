import Mathlib.Analysis.SpecialFunctions.Integrals.Basic
import Mathlib.Algebra.Polynomial.Eval.Degree

/-! # Specification: applying a quadrature rule, size of a polynomial on an element -/

namespace Mrx.Spec

/-- `∑ w_j f(x_j)` for a rule given as a list of points and a list of weights. -/
def applyRule {K : Type*} [Field K] (xw : List K × List K) (f : K → K) : K :=
  ((xw.1.zip xw.2).map fun t => t.2 * f t.1).sum

/-- Sum of the absolute values of the coefficients of `f`, written in the reference variable
`ξ ∈ [-1,1]` of the element `[a,b]`. -/
noncomputable def coeffSize (f : Polynomial ℝ) (a b : ℝ) (m : Nat) : ℝ :=
  ∑ k ∈ Finset.range m,
    |(f.comp (Polynomial.C ((b - a) / 2) * Polynomial.X + Polynomial.C ((a + b) / 2))).coeff k|

end Mrx.Spec
