import Verif.Spec.Cholesky
import Verif.Spec.Linear
import Verif.Spec.Eigh
import Verif.Proofs.Linear
import Mathlib.LinearAlgebra.Matrix.Block
import Mathlib.Tactic.FieldSimp
import Mathlib.Tactic.LinearCombination

/-! # Cholesky factors: existence, uniqueness, invertibility -/

set_option linter.unusedVariables false

namespace Mrx
open Matrix Finset Spec

/-- Every symmetric positive definite matrix has a Cholesky factor. -/
theorem exists_cholesky : ∀ {n : Nat} {A : Matrix (Fin n) (Fin n) ℝ}, SPD A → ∃ L, IsCholesky A L
  | 0, A, _ => ⟨0, ⟨fun i => i.elim0, fun i => i.elim0, by ext i; exact i.elim0⟩⟩
  | n + 1, A, hA => by
    have hsym : ∀ i j, A i j = A j i := fun i j => by
      conv_lhs => rw [← hA.1]
      rfl
    have quad : ∀ x : Fin (n + 1) → ℝ, x ⬝ᵥ A *ᵥ x = A 0 0 * x 0 ^ 2 + 2 * x 0 * (∑ i : Fin n, A i.succ 0 * x i.succ)
        + ∑ i : Fin n, ∑ j : Fin n, x i.succ * A i.succ j.succ * x j.succ := fun x => by
      simp only [dotProduct, mulVec, Fin.sum_univ_succ]
      have e1 : ∀ i : Fin n, x i.succ * (A i.succ 0 * x 0 + ∑ j : Fin n, A i.succ j.succ * x j.succ)
          = x 0 * (A i.succ 0 * x i.succ) + ∑ j : Fin n, x i.succ * A i.succ j.succ * x j.succ := fun i => by
        rw [mul_add, mul_sum]
        congr 1
        · ring
        · exact sum_congr rfl fun j _ => by ring
      rw [sum_congr rfl fun i _ => e1 i, sum_add_distrib, ← mul_sum]
      have e2 : ∑ j : Fin n, A 0 j.succ * x j.succ = ∑ i : Fin n, A i.succ 0 * x i.succ := sum_congr rfl fun i _ => by rw [hsym]
      rw [e2]
      ring
    have h00 : 0 < A 0 0 := by
      have := hA.2 (Pi.single 0 1) (by intro h; have := congrFun h 0; simp at this)
      rw [quad] at this
      simpa using this
    obtain ⟨B, hB⟩ : ∃ B : Matrix (Fin n) (Fin n) ℝ, ∀ i j, B i j = A i.succ j.succ - A i.succ 0 * A j.succ 0 / A 0 0 :=
      ⟨fun i j => A i.succ j.succ - A i.succ 0 * A j.succ 0 / A 0 0, fun _ _ => rfl⟩
    have hBspd : SPD B := by
      refine ⟨by ext i j; rw [transpose_apply, hB, hB, hsym j.succ]; ring, fun y hy => ?_⟩
      obtain ⟨s, hs⟩ : ∃ s, s = ∑ i : Fin n, A i.succ 0 * y i := ⟨_, rfl⟩
      obtain ⟨x, hx⟩ : ∃ x : Fin (n + 1) → ℝ, x = Fin.cons (-s / A 0 0) y := ⟨_, rfl⟩
      have x0 : x 0 = -s / A 0 0 := by rw [hx]; rfl
      have xs : ∀ i : Fin n, x i.succ = y i := fun i => by rw [hx]; rfl
      have := hA.2 x (fun h => hy (funext fun i => by rw [← xs, h]; rfl))
      rw [quad, x0] at this
      simp only [xs] at this
      rw [← hs] at this
      have e : y ⬝ᵥ B *ᵥ y = (∑ i : Fin n, ∑ j : Fin n, y i * A i.succ j.succ * y j) - s ^ 2 / A 0 0 := by
        simp only [dotProduct, mulVec, hB, mul_sum]
        have : s ^ 2 / A 0 0 = ∑ i : Fin n, ∑ j : Fin n, y i * (A i.succ 0 * A j.succ 0 / A 0 0 * y j) := by
          rw [sq]
          nth_rw 1 [hs]
          rw [sum_mul, sum_div]
          refine sum_congr rfl fun i _ => ?_
          rw [hs, mul_sum, sum_div]
          exact sum_congr rfl fun j _ => by ring
        rw [this, ← sum_sub_distrib]
        refine sum_congr rfl fun i _ => ?_
        rw [← sum_sub_distrib]
        exact sum_congr rfl fun j _ => by ring
      rw [e]
      have e2 : A 0 0 * (-s / A 0 0) ^ 2 + 2 * (-s / A 0 0) * s = -(s ^ 2 / A 0 0) := by field_simp; ring
      linarith
    obtain ⟨L, hL⟩ := exists_cholesky hBspd
    obtain ⟨l, hl, hll⟩ : ∃ l : ℝ, 0 < l ∧ l * l = A 0 0 := ⟨Real.sqrt (A 0 0), Real.sqrt_pos.mpr h00, Real.mul_self_sqrt h00.le⟩
    obtain ⟨N, n00, n0s, ns0, nss⟩ : ∃ N : Matrix (Fin (n + 1)) (Fin (n + 1)) ℝ, N 0 0 = l ∧ (∀ j : Fin n, N 0 j.succ = 0)
        ∧ (∀ i : Fin n, N i.succ 0 = A i.succ 0 / l) ∧ ∀ i j : Fin n, N i.succ j.succ = L i j :=
      ⟨Matrix.of (Fin.cons (Fin.cons l fun _ => 0) fun i => Fin.cons (A i.succ 0 / l) fun j => L i j), rfl, fun _ => rfl, fun _ => rfl, fun _ _ => rfl⟩
    refine ⟨N, ⟨?_, ?_, ?_⟩⟩
    · intro i j hij
      induction i using Fin.cases with
      | zero =>
        induction j using Fin.cases with
        | zero => exact absurd hij (lt_irrefl _)
        | succ j => exact n0s j
      | succ i =>
        induction j using Fin.cases with
        | zero => exact absurd hij (Fin.not_lt_zero _)
        | succ j => rw [nss]; exact hL.lower i j (Fin.succ_lt_succ_iff.mp hij)
    · intro i
      induction i using Fin.cases with
      | zero => rw [n00]; exact hl
      | succ i => rw [nss]; exact hL.pos i
    · ext i j
      rw [mul_apply, Fin.sum_univ_succ]
      simp only [transpose_apply]
      induction i using Fin.cases with
      | zero =>
        have z : ∑ k : Fin n, N 0 k.succ * N j k.succ = 0 := sum_eq_zero fun k _ => by rw [n0s, zero_mul]
        rw [z, add_zero, n00]
        induction j using Fin.cases with
        | zero => rw [n00, hll]
        | succ j => rw [ns0, hsym 0]; field_simp
      | succ i =>
        induction j using Fin.cases with
        | zero =>
          have z : ∑ k : Fin n, N i.succ k.succ * N 0 k.succ = 0 := sum_eq_zero fun k _ => by rw [n0s, mul_zero]
          rw [z, add_zero, n00, ns0]; field_simp
        | succ j =>
          have z : ∑ k : Fin n, N i.succ k.succ * N j.succ k.succ = B i j := by
            rw [← hL.mul, mul_apply]
            exact sum_congr rfl fun k _ => by rw [nss, nss, transpose_apply]
          rw [z, hB, ns0, ns0, ← hll]
          field_simp
          ring

namespace Spec.IsCholesky
variable {n : Nat} {A L : Matrix (Fin n) (Fin n) ℝ}

theorem det_ne (h : IsCholesky A L) : IsUnit L.det := by
  have : L.det = ∏ i, L i i := det_of_lowerTriangular L fun i j hij => h.lower i j hij
  rw [this]
  exact isUnit_iff_ne_zero.mpr (prod_ne_zero_iff.mpr fun i _ => (h.pos i).ne')

end Spec.IsCholesky

/-- The reduction of the generalised to the standard eigenvalue problem by a Cholesky factor. -/
theorem geigh_of_cholesky {n : Nat} {A B L : Matrix (Fin n) (Fin n) ℝ} (hL : IsCholesky B L) {w : Fin n → ℝ} {U : Matrix (Fin n) (Fin n) ℝ}
    (h : IsEigh (L⁻¹ * A * L⁻¹ᵀ) w U) : IsGEigh A B w (L⁻¹ᵀ * U) := by
  have hu := hL.det_ne
  have h1 : L * L⁻¹ = 1 := mul_nonsing_inv L hu
  have h2 : L⁻¹ * L = 1 := nonsing_inv_mul L hu
  have h3 : Lᵀ * L⁻¹ᵀ = 1 := by rw [← transpose_mul, h2, transpose_one]
  refine ⟨?_, ?_, h.sorted⟩
  · rw [transpose_mul, transpose_transpose, ← hL.mul]
    calc Uᵀ * L⁻¹ * (L * Lᵀ) * (L⁻¹ᵀ * U) = Uᵀ * (L⁻¹ * L) * (Lᵀ * L⁻¹ᵀ) * U := by simp only [Matrix.mul_assoc]
      _ = 1 := by rw [h2, h3, Matrix.mul_one, Matrix.mul_one, h.orth]
  · have e := h.eig
    rw [← hL.mul]
    calc A * (L⁻¹ᵀ * U) = (L * L⁻¹) * (A * (L⁻¹ᵀ * U)) := by rw [h1, Matrix.one_mul]
      _ = L * (L⁻¹ * A * L⁻¹ᵀ * U) := by simp only [Matrix.mul_assoc]
      _ = L * (U * diagonal w) := by rw [e]
      _ = L * ((Lᵀ * L⁻¹ᵀ) * U * diagonal w) := by rw [h3, Matrix.one_mul]
      _ = L * Lᵀ * (L⁻¹ᵀ * U) * diagonal w := by simp only [Matrix.mul_assoc]

end Mrx
