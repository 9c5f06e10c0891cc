import Verif.Spec.Linear
import Verif.Model.Assembly
import Mathlib.LinearAlgebra.Matrix.PosDef
import Mathlib.LinearAlgebra.Matrix.ToLin
import Mathlib.Algebra.Order.Star.Real
import Mathlib.Analysis.Matrix.Order
import Mathlib.Tactic.Ring
import Mathlib.Tactic.Linarith

/-! # Linear algebra of assembled matrices -/

set_option linter.unusedSectionVars false

namespace Mrx
open Finset Matrix Spec

section generic
variable {n m : Nat}

theorem dot_self_nonneg (x : Fin n → ℝ) : 0 ≤ x ⬝ᵥ x := by
  unfold dotProduct; exact Finset.sum_nonneg fun i _ => mul_self_nonneg _

theorem sym_dot {A : Matrix (Fin n) (Fin n) ℝ} (h : Aᵀ = A) (x y : Fin n → ℝ) : x ⬝ᵥ A *ᵥ y = y ⬝ᵥ A *ᵥ x := by
  rw [dotProduct_mulVec, ← mulVec_transpose, h, dotProduct_comm]

theorem transpose_dot (A : Matrix (Fin n) (Fin m) ℝ) (x : Fin n → ℝ) (y : Fin m → ℝ) :
    x ⬝ᵥ A *ᵥ y = (Aᵀ *ᵥ x) ⬝ᵥ y := by
  rw [dotProduct_mulVec, ← mulVec_transpose]

theorem ext_dot {A B : Matrix (Fin n) (Fin m) ℝ} (h : ∀ x y, x ⬝ᵥ A *ᵥ y = x ⬝ᵥ B *ᵥ y) : A = B := by
  ext i j
  have := h (Pi.single i 1) (Pi.single j 1)
  simpa using this

theorem ext_mulVec {A B : Matrix (Fin n) (Fin m) ℝ} (h : ∀ y, A *ᵥ y = B *ᵥ y) : A = B :=
  ext_dot fun x y => by rw [h]

namespace Spec
variable {A : Matrix (Fin n) (Fin n) ℝ}

theorem SPD.isUnit (h : SPD A) : IsUnit A := by
  rw [← Matrix.mulVec_injective_iff_isUnit]
  intro x y hxy
  by_contra hne
  have := h.2 (x - y) (sub_ne_zero.mpr hne)
  rw [mulVec_sub, hxy, sub_self, dotProduct_zero] at this
  exact lt_irrefl _ this

theorem SPD.det (h : SPD A) : IsUnit A.det := (isUnit_iff_isUnit_det A).mp h.isUnit
theorem SPD.mul_inv (h : SPD A) : A * A⁻¹ = 1 := mul_nonsing_inv A h.det
theorem SPD.inv_mul (h : SPD A) : A⁻¹ * A = 1 := nonsing_inv_mul A h.det
theorem SPD.inv_sym (h : SPD A) : A⁻¹ᵀ = A⁻¹ := by rw [transpose_nonsing_inv, h.1]
theorem SPD.psd (h : SPD A) : SPSD A := ⟨h.1, fun x => by
  by_cases hx : x = 0
  · simp [hx]
  · exact (h.2 x hx).le⟩
theorem SPD.eq_zero (h : SPD A) {x : Fin n → ℝ} (hx : x ⬝ᵥ A *ᵥ x = 0) : x = 0 := by
  by_contra hne; exact absurd hx (h.2 x hne).ne'

theorem SPD.inv (h : SPD A) : SPD A⁻¹ := by
  refine ⟨h.inv_sym, fun x hx => ?_⟩
  have hne : A⁻¹ *ᵥ x ≠ 0 := by
    intro h0
    apply hx
    have : A *ᵥ (A⁻¹ *ᵥ x) = x := by rw [mulVec_mulVec, h.mul_inv, one_mulVec]
    rw [← this, h0, mulVec_zero]
  have := h.2 _ hne
  rwa [mulVec_mulVec, h.mul_inv, one_mulVec, dotProduct_comm] at this

theorem SPSD.add {B : Matrix (Fin n) (Fin n) ℝ} (h : SPSD A) (h' : SPSD B) : SPSD (A + B) :=
  ⟨by rw [transpose_add, h.1, h'.1], fun x => by
    rw [add_mulVec, dotProduct_add]; exact add_nonneg (h.2 x) (h'.2 x)⟩

theorem SPSD.congr (h : SPSD A) (E : Matrix (Fin m) (Fin n) ℝ) : SPSD (E * A * Eᵀ) := by
  refine ⟨?_, fun x => ?_⟩
  · rw [transpose_mul, transpose_mul, transpose_transpose, h.1, Matrix.mul_assoc]
  · have : x ⬝ᵥ (E * A * Eᵀ) *ᵥ x = (Eᵀ *ᵥ x) ⬝ᵥ A *ᵥ (Eᵀ *ᵥ x) := by
      rw [← mulVec_mulVec, ← mulVec_mulVec, transpose_dot]
    rw [this]; exact h.2 _

theorem SPD.congr (h : SPD A) (E : Matrix (Fin m) (Fin n) ℝ) (hE : ∀ x, Eᵀ *ᵥ x = 0 → x = 0) : SPD (E * A * Eᵀ) := by
  refine ⟨(h.psd.congr E).1, fun x hx => ?_⟩
  have : x ⬝ᵥ (E * A * Eᵀ) *ᵥ x = (Eᵀ *ᵥ x) ⬝ᵥ A *ᵥ (Eᵀ *ᵥ x) := by
    rw [← mulVec_mulVec, ← mulVec_mulVec, transpose_dot]
  rw [this]; exact h.2 _ fun h0 => hx (hE x h0)

/-- For a semidefinite form, `xᵀAx = 0` forces `Ax = 0`. -/
theorem SPSD.mulVec_eq_zero (h : SPSD A) {x : Fin n → ℝ} (hx : x ⬝ᵥ A *ᵥ x = 0) : A *ᵥ x = 0 := by
  have hP : A.PosSemidef := by
    refine PosSemidef.of_dotProduct_mulVec_nonneg ?_ fun y => ?_
    · rw [IsHermitian, conjTranspose_eq_transpose_of_trivial]; exact h.1
    · simpa using h.2 y
  exact (hP.dotProduct_mulVec_zero_iff x).mp (by simpa using hx)
end Spec
end generic

section assembly
variable {n1 n2 n nq d : Nat}

/-- The table of a getter at one quadrature point. -/
def tab (g : Getter) (d n j : Nat) : Matrix (Fin d) (Fin n) ℝ := fun k a => g a j k

theorem assemble_eq (g1 g2 : Getter) (W : Nat → Matrix (Fin d) (Fin d) ℝ) :
    assemble g1 g2 nq d W n1 n2 = ∑ j ∈ range nq, (tab g1 d n1 j)ᵀ * W j * tab g2 d n2 j := by
  ext a b
  simp only [assemble, Matrix.sum_apply, Matrix.mul_apply, transpose_apply, tab, Finset.sum_mul]
  exact Finset.sum_congr rfl fun j _ => Finset.sum_comm

theorem tab_mulVec (g : Getter) (j : Nat) (u : Fin n → ℝ) :
    tab g d n j *ᵥ u = fun k : Fin d => evaluateAtXq g u j k := by
  funext k; rfl

/-- The bilinear form of an assembled matrix. -/
theorem assemble_dot (g1 g2 : Getter) (W : Nat → Matrix (Fin d) (Fin d) ℝ) (u : Fin n1 → ℝ) (v : Fin n2 → ℝ) :
    u ⬝ᵥ assemble g1 g2 nq d W n1 n2 *ᵥ v = ∑ j ∈ range nq,
      (fun k : Fin d => evaluateAtXq g1 u j k) ⬝ᵥ W j *ᵥ (fun k : Fin d => evaluateAtXq g2 v j k) := by
  rw [assemble_eq, Matrix.sum_mulVec, dotProduct_sum]
  refine Finset.sum_congr rfl fun j _ => ?_
  rw [← mulVec_mulVec, ← mulVec_mulVec, transpose_dot, transpose_transpose, tab_mulVec, tab_mulVec]

/-- Equal fields give equal assembled columns. -/
theorem assemble_mulVec_congr (g g2 g3 : Getter) (W : Nat → Matrix (Fin d) (Fin d) ℝ) {n3 : Nat} (u : Fin n2 → ℝ) (v : Fin n3 → ℝ)
    (h : ∀ j < nq, ∀ k < d, evaluateAtXq g2 u j k = evaluateAtXq g3 v j k) :
    assemble g g2 nq d W n n2 *ᵥ u = assemble g g3 nq d W n n3 *ᵥ v := by
  rw [assemble_eq, assemble_eq, Matrix.sum_mulVec, Matrix.sum_mulVec]
  refine Finset.sum_congr rfl fun j hj => ?_
  simp only [← mulVec_mulVec, tab_mulVec]
  congr 2
  funext k
  exact h j (mem_range.mp hj) k k.2

theorem assemble_transpose (g1 g2 : Getter) (W : Nat → Matrix (Fin d) (Fin d) ℝ) (hW : ∀ j < nq, (W j)ᵀ = W j) :
    (assemble g1 g2 nq d W n1 n2)ᵀ = assemble g2 g1 nq d W n2 n1 := by
  rw [assemble_eq, assemble_eq, Matrix.transpose_sum]
  refine Finset.sum_congr rfl fun j hj => ?_
  rw [transpose_mul, transpose_mul, transpose_transpose, hW j (mem_range.mp hj), Matrix.mul_assoc]

theorem assemble_psd (g : Getter) (W : Nat → Matrix (Fin d) (Fin d) ℝ) (hW : ∀ j < nq, SPSD (W j)) :
    SPSD (assemble g g nq d W n n) :=
  ⟨assemble_transpose g g W fun j hj => (hW j hj).1, fun x => by
    rw [assemble_dot]; exact Finset.sum_nonneg fun j hj => (hW j (mem_range.mp hj)).2 _⟩

/-- The form of a definite assembled matrix vanishes exactly on coefficient vectors whose field vanishes at all
quadrature points. -/
theorem assemble_zero_iff (g : Getter) (W : Nat → Matrix (Fin d) (Fin d) ℝ) (hW : ∀ j < nq, SPD (W j)) (x : Fin n → ℝ) :
    x ⬝ᵥ assemble g g nq d W n n *ᵥ x = 0 ↔ ∀ j < nq, ∀ k < d, evaluateAtXq g x j k = 0 := by
  rw [assemble_dot, Finset.sum_eq_zero_iff_of_nonneg fun j hj => (hW j (mem_range.mp hj)).psd.2 _]
  constructor
  · intro h j hj k hk
    have := (hW j hj).eq_zero (h j (mem_range.mpr hj))
    exact congrFun this ⟨k, hk⟩
  · intro h j hj
    have : (fun k : Fin d => evaluateAtXq g x j k) = 0 := by
      funext k; exact h j (mem_range.mp hj) k k.2
    rw [this]; simp

end assembly
end Mrx
