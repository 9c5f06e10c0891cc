import Verif.Spec.Similarity

/-!
# Toroidal shifts

Coefficients and quadrature points are stored with the toroidal index running fastest; moving by `m` toroidal cells advances that index cyclically.
-/

namespace Mrx.Spec
open Matrix Mrx

/-- Advance the fastest index, which runs over `nz` values, by `m`, cyclically. -/
def shiftIndex (nz m i : Nat) : Nat := i / nz * nz + (i % nz + m) % nz

/-- The vector with the coefficients moved by `m` toroidal cells. -/
def shiftVec (nz m : Nat) {N : Nat} (v : Fin N → ℝ) : Fin N → ℝ := fun i => if h : shiftIndex nz m i < N then v ⟨shiftIndex nz m i, h⟩ else 0

/-- The device is carried to itself by a rigid motion when the toroidal coordinate advances by `a`. -/
def IsSymmetric (F : V3 → V3) (a : ℝ) (R : M33) : Prop := IsRotation R ∧ ∃ b : V3, ∀ x : V3, F ![x 0, x 1, x 2 + a] = R *ᵥ F x + b

/-- A vector field carried to itself by the same motion. -/
def IsSymmetricField (v : V3 → V3) (a : ℝ) (R : M33) : Prop := ∀ x : V3, v ![x 0, x 1, x 2 + a] = R *ᵥ v x

/-- A scalar carried to itself. -/
def IsSymmetricScalar (f : V3 → Fin 1 → ℝ) (a : ℝ) : Prop := ∀ x : V3, f ![x 0, x 1, x 2 + a] = f x

/-- The matrix with rows and columns moved by `m` toroidal cells. -/
def shiftMat (nz m : Nat) {N : Nat} (A : Matrix (Fin N) (Fin N) ℝ) : Matrix (Fin N) (Fin N) ℝ :=
  fun i j => if h : shiftIndex nz m i < N ∧ shiftIndex nz m j < N then A ⟨shiftIndex nz m i, h.1⟩ ⟨shiftIndex nz m j, h.2⟩ else 0

/-- The state of a relaxation moved by `m` toroidal cells. -/
def shiftState (nz m : Nat) {N : Nat} (s : State (Fin N → ℝ) (Matrix (Fin N) (Fin N) ℝ)) : State (Fin N → ℝ) (Matrix (Fin N) (Fin N) ℝ) :=
  { s with Bn := shiftVec nz m s.Bn, Bguess := shiftVec nz m s.Bguess, hessian := shiftMat nz m s.hessian }

/-- The recorded fields moved by `m` toroidal cells; the recorded numbers are the same. -/
def shiftTrace (nz m : Nat) {N : Nat} (t : Trace (Fin N → ℝ)) : Trace (Fin N → ℝ) := { t with Bfields := t.Bfields.map (shiftVec nz m) }

/-- Moving the coefficients and applying the matrix can be done in either order. -/
def CommutesWithShift (nz m : Nat) {N M : Nat} (A : Matrix (Fin N) (Fin M) ℝ) : Prop := ∀ v : Fin M → ℝ, A *ᵥ shiftVec nz m v = shiftVec nz m (A *ᵥ v)

end Mrx.Spec
