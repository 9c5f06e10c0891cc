import Verif.Model.LazyDispatch
import Verif.Props.LazyExact

/-!
# C37: the dispatch of `LazyDerivativeMatrix`
-/

set_option linter.unusedSectionVars false
set_option linter.unusedVariables false

namespace Mrx
namespace Props
open Matrix

theorem matmul_ok {a b c : Nat} (A : Matrix (Fin a) (Fin b) ℝ) (B : Matrix (Fin b) (Fin c) ℝ) : Arr2.matmul ⟨a, b, A⟩ ⟨b, c, B⟩ = .ok ⟨a, c, A * B⟩ := by
  unfold Arr2.matmul
  rw [dif_pos rfl]
  rfl

theorem matmul_cast {a b b' c : Nat} (h : b = b') (A : Matrix (Fin a) (Fin b) ℝ) : Arr2.matmul ⟨a, b, A⟩ ⟨b', c, 0⟩ = .ok ⟨a, c, 0⟩ := by
  subst h
  rw [matmul_ok, Matrix.mul_zero]

theorem matmul_error {a b b' c : Nat} (h : b ≠ b') (A : Matrix (Fin a) (Fin b) ℝ) (B : Matrix (Fin b') (Fin c) ℝ) : ∃ e, Arr2.matmul ⟨a, b, A⟩ ⟨b', c, B⟩ = .error e := by
  unfold Arr2.matmul
  rw [dif_neg h]
  exact ⟨_, rfl⟩

section
variable (Q : Quad.Rule ℝ) (F : V3 → V3) (Λ0 Λ1 : Form ℝ) {r0 r1 : Nat} (E0 : Matrix (Fin r0) (Fin Λ0.dims.n) ℝ) (E1 : Matrix (Fin r1) (Fin Λ1.dims.n) ℝ)

/-- **C37** for forms of degree 0, 1 and 2 `matrix()` is the gradient, curl and divergence matrix between the two extracted spaces. -/
theorem C37_derivative_matrix :
    (Λ0.dims.k = 0 → lazyDerivativeMatrix Q F Λ0 Λ1 (some ⟨r0, _, E0⟩) (some ⟨r1, _, E1⟩) = .ok ⟨r1, r0, E1 * lazyGradient Q F Λ0 Λ1 * E0ᵀ⟩) ∧
    (Λ0.dims.k = 1 → lazyDerivativeMatrix Q F Λ0 Λ1 (some ⟨r0, _, E0⟩) (some ⟨r1, _, E1⟩) = .ok ⟨r1, r0, E1 * lazyCurl Q F Λ0 Λ1 * E0ᵀ⟩) ∧
    (Λ0.dims.k = 2 → lazyDerivativeMatrix Q F Λ0 Λ1 (some ⟨r0, _, E0⟩) (some ⟨r1, _, E1⟩) = .ok ⟨r1, r0, E1 * lazyDiv Q F Λ0 Λ1 * E0ᵀ⟩) := by
  refine ⟨fun h => ?_, fun h => ?_, fun h => ?_⟩ <;>
  · unfold lazyDerivativeMatrix lazyDerivativeAssemble
    simp [h, Arr2.T, matmul_ok]

/-- **C37** without extraction operators, the matrices themselves. -/
theorem C37_derivative_matrix_plain :
    (Λ0.dims.k = 0 → lazyDerivativeMatrix Q F Λ0 Λ1 none none = .ok ⟨_, _, lazyGradient Q F Λ0 Λ1⟩) ∧
    (Λ0.dims.k = 1 → lazyDerivativeMatrix Q F Λ0 Λ1 none none = .ok ⟨_, _, lazyCurl Q F Λ0 Λ1⟩) ∧
    (Λ0.dims.k = 2 → lazyDerivativeMatrix Q F Λ0 Λ1 none none = .ok ⟨_, _, lazyDiv Q F Λ0 Λ1⟩) := by
  refine ⟨fun h => ?_, fun h => ?_, fun h => ?_⟩ <;>
  · unfold lazyDerivativeMatrix lazyDerivativeAssemble
    simp [h, Arr2.T, Arr2.eye, matmul_ok]

/-- **C37 (finding)** for 3-forms the zero matrix has its sizes the wrong way round: `matrix()` returns (zero, of the right shape) only if both forms have the same number of basis functions,
and fails with `TypeError` otherwise. -/
theorem C37_derivative_threeform (h : Λ0.dims.k = 3) :
    (Λ0.dims.n = Λ1.dims.n → lazyDerivativeMatrix Q F Λ0 Λ1 (some ⟨r0, _, E0⟩) (some ⟨r1, _, E1⟩) = .ok ⟨r1, r0, 0⟩) ∧
    (Λ0.dims.n ≠ Λ1.dims.n → ∃ e, lazyDerivativeMatrix Q F Λ0 Λ1 (some ⟨r0, _, E0⟩) (some ⟨r1, _, E1⟩) = .error e) := by
  constructor
  · intro hn
    unfold lazyDerivativeMatrix lazyDerivativeAssemble
    simp only [h, Arr2.T, Option.getD_some, reduceIte, Int.reduceEq]
    rw [matmul_cast hn.symm]
    simp only
    unfold Arr2.matmul
    rw [dif_pos hn.symm]
    simp
  · intro hn
    unfold lazyDerivativeMatrix lazyDerivativeAssemble
    obtain ⟨e, he⟩ := matmul_error (c := Λ1.dims.n) hn.symm E1 0
    exact ⟨e, by simp [h, Arr2.T, he]⟩

/-- **C37 (finding)** for vector fields (`k = -1`) no case applies: `TypeError`. -/
theorem C37_derivative_vector (h : Λ0.dims.k = -1) (A0 A1 : Option Arr2) : ∃ e, lazyDerivativeMatrix Q F Λ0 Λ1 A0 A1 = .error e := by
  unfold lazyDerivativeMatrix lazyDerivativeAssemble
  simp [h]

end

/-- The hypotheses hold for the forms of a sequence. -/
example (polar dirichlet : Bool) (Q : Quad.Rule ℝ) (F : V3 → V3) :=
  (C37_derivative_matrix_plain Q F (Case.D polar dirichlet).S.L0 (Case.D polar dirichlet).S.L1).1 (Case.adm polar dirichlet).degrees.1
example (polar dirichlet : Bool) (Q : Quad.Rule ℝ) (F : V3 → V3) :=
  (C37_derivative_matrix Q F (Case.D polar dirichlet).S.L2 (Case.D polar dirichlet).S.L3 (r0 := 2) (r1 := 3) (fun i j => i) (fun i j => i)).2.2
    (Case.adm polar dirichlet).degrees.2.2.1

/-- Both cases for 3-forms occur: from the 3-forms to themselves, and to the 0-forms of a small clamped space. -/
example (polar dirichlet : Bool) (Q : Quad.Rule ℝ) (F : V3 → V3) := (C37_derivative_threeform Q F (Case.D polar dirichlet).S.L3 (Case.D polar dirichlet).S.L3
  (r0 := 2) (r1 := 3) (fun i j => i) (fun i j => i) (Case.adm polar dirichlet).degrees.2.2.2).1 rfl
example (f : Form ℝ) (Q : Quad.Rule ℝ) (F : V3 → V3) := (C37_derivative_threeform Q F { f with dims := ⟨3, 2, 2, 2, 1, 2, 2⟩ } { f with dims := ⟨0, 2, 2, 2, 1, 2, 2⟩ }
  (r0 := 2) (r1 := 3) (fun i j => i) (fun i j => i) rfl).2 (show (⟨3, 2, 2, 2, 1, 2, 2⟩ : Dims).n ≠ (⟨0, 2, 2, 2, 1, 2, 2⟩ : Dims).n by decide)
example (f : Form ℝ) (Q : Quad.Rule ℝ) (F : V3 → V3) := C37_derivative_vector Q F { f with dims := ⟨-1, 2, 2, 2, 1, 2, 2⟩ } f rfl none none

end Props
end Mrx
