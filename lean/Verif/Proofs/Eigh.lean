import Verif.Spec.Eigh
import Verif.Proofs.Linear
import Mathlib.Analysis.Matrix.Spectrum
import Mathlib.Data.Fin.Tuple.Sort

/-! # Symmetric eigenvalue problems: existence, kernels, signs -/

set_option linter.unusedSectionVars false
set_option linter.unusedVariables false

namespace Mrx
open Finset Spec Matrix Module

/-- Every symmetric matrix has such a decomposition. -/
theorem exists_eigh {n : Nat} {A : Matrix (Fin n) (Fin n) ℝ} (hA : Aᵀ = A) : ∃ w V, IsEigh A w V := by
  have hH : A.IsHermitian := by
    show Aᴴ = A
    rw [conjTranspose_eq_transpose_of_trivial, hA]
  obtain ⟨U, hU⟩ : ∃ U : Matrix (Fin n) (Fin n) ℝ, U = (hH.eigenvectorUnitary : Matrix (Fin n) (Fin n) ℝ) := ⟨_, rfl⟩
  have hUU : Uᵀ * U = 1 := by
    have := Matrix.mem_unitaryGroup_iff'.mp hH.eigenvectorUnitary.2
    rwa [star_eq_conjTranspose, conjTranspose_eq_transpose_of_trivial, ← hU] at this
  have hAU : A * U = U * diagonal hH.eigenvalues := by
    ext i j
    have := congrFun (hH.mulVec_eigenvectorBasis j) i
    rw [mul_diagonal, hU]
    simp only [Matrix.mul_apply, IsHermitian.eigenvectorUnitary_apply]
    simp only [mulVec, dotProduct, Pi.smul_apply, smul_eq_mul] at this
    rw [mul_comm]
    exact this
  obtain ⟨σ, hσ⟩ : ∃ σ, σ = Tuple.sort hH.eigenvalues := ⟨_, rfl⟩
  refine ⟨hH.eigenvalues ∘ σ, U.submatrix id σ, ?_, ?_, ?_⟩
  · ext i j
    have := congrFun (congrFun hUU (σ i)) (σ j)
    simp only [Matrix.mul_apply, transpose_apply, submatrix_apply, id] at this ⊢
    rw [this, one_apply, one_apply]
    simp
  · ext i j
    have := congrFun (congrFun hAU i) (σ j)
    rw [mul_diagonal] at this ⊢
    simp only [Matrix.mul_apply, submatrix_apply, id, Function.comp] at this ⊢
    exact this
  · rw [hσ]; exact Tuple.monotone_sort _

theorem exists_geigh {n : Nat} {A M : Matrix (Fin n) (Fin n) ℝ} (hA : Aᵀ = A) (hM : SPD M) : ∃ w V, IsGEigh A M w V := by
  obtain ⟨m, U, hU⟩ := exists_eigh hM.1
  have hpos : ∀ k, 0 < m k := by
    intro k
    have hne : (fun i => U i k) ≠ 0 := by
      intro h0
      have := congrFun (congrFun hU.orth k) k
      simp only [Matrix.mul_apply, transpose_apply, one_apply_eq] at this
      rw [show (fun i => U i k) = fun i => U i k from rfl] at h0
      simp [show ∀ i, U i k = 0 from fun i => congrFun h0 i] at this
    have h1 := hM.2 _ hne
    have h2 : M *ᵥ (fun i => U i k) = m k • fun i => U i k := by
      funext i
      have := congrFun (congrFun hU.eig i) k
      rw [mul_diagonal] at this
      simp only [Matrix.mul_apply] at this
      simp only [mulVec, dotProduct, Pi.smul_apply, smul_eq_mul]
      rw [this, mul_comm]
    have h3 : (fun i => U i k) ⬝ᵥ (fun i => U i k) = 1 := by
      have := congrFun (congrFun hU.orth k) k
      simp only [Matrix.mul_apply, transpose_apply, one_apply_eq] at this
      exact this
    rw [h2, dotProduct_smul, h3, smul_eq_mul, mul_one] at h1
    exact h1
  have hUU' : U * Uᵀ = 1 := mul_eq_one_comm.mp hU.orth
  obtain ⟨S, hS⟩ : ∃ S : Matrix (Fin n) (Fin n) ℝ, S = U * diagonal (fun k => (Real.sqrt (m k))⁻¹) := ⟨_, rfl⟩
  have hMS : Sᵀ * M * S = 1 := by
    rw [hS, transpose_mul, diagonal_transpose]
    calc diagonal (fun k => (Real.sqrt (m k))⁻¹) * Uᵀ * M * (U * diagonal fun k => (Real.sqrt (m k))⁻¹)
        = diagonal (fun k => (Real.sqrt (m k))⁻¹) * Uᵀ * (M * U) * diagonal (fun k => (Real.sqrt (m k))⁻¹) := by
          simp only [Matrix.mul_assoc]
      _ = diagonal (fun k => (Real.sqrt (m k))⁻¹) * (Uᵀ * U) * diagonal m * diagonal (fun k => (Real.sqrt (m k))⁻¹) := by
          rw [hU.eig]; simp only [Matrix.mul_assoc]
      _ = 1 := by
          rw [hU.orth, Matrix.mul_one, diagonal_mul_diagonal, diagonal_mul_diagonal, ← diagonal_one]
          congr 1
          funext k
          have h := Real.mul_self_sqrt (hpos k).le
          have h0 : Real.sqrt (m k) ≠ 0 := (Real.sqrt_pos.mpr (hpos k)).ne'
          field_simp
          rw [sq, h]
  obtain ⟨w, W, hW⟩ := exists_eigh (A := Sᵀ * A * S) (by rw [transpose_mul, transpose_mul, transpose_transpose, hA, Matrix.mul_assoc])
  refine ⟨w, S * W, ?_, ?_, hW.sorted⟩
  · calc (S * W)ᵀ * M * (S * W) = Wᵀ * (Sᵀ * M * S) * W := by rw [transpose_mul]; simp only [Matrix.mul_assoc]
      _ = 1 := by rw [hMS, Matrix.mul_one, hW.orth]
  · have hinv : (M * S) * Sᵀ = 1 := mul_eq_one_comm.mp (by rw [← Matrix.mul_assoc]; exact hMS)
    calc A * (S * W) = (M * S) * Sᵀ * (A * (S * W)) := by rw [hinv, Matrix.one_mul]
      _ = M * S * ((Sᵀ * A * S) * W) := by simp only [Matrix.mul_assoc]
      _ = M * (S * W) * diagonal w := by rw [hW.eig]; simp only [Matrix.mul_assoc]

namespace Spec.IsGEigh
variable {n : Nat} {A M : Matrix (Fin n) (Fin n) ℝ} {w : Fin n → ℝ} {V : Matrix (Fin n) (Fin n) ℝ}

theorem col (h : IsGEigh A M w V) (k : Fin n) : A *ᵥ V.col k = w k • M *ᵥ V.col k := by
  funext i
  have := congrFun (congrFun h.eig i) k
  rw [mul_diagonal] at this
  simp only [Matrix.mul_apply] at this
  simp only [mulVec, dotProduct, Pi.smul_apply, smul_eq_mul, Matrix.col_apply]
  rw [this, mul_comm]

theorem col_dot (h : IsGEigh A M w V) (j k : Fin n) : V.col j ⬝ᵥ M *ᵥ V.col k = if j = k then 1 else 0 := by
  have := congrFun (congrFun h.orth j) k
  rw [one_apply] at this
  rw [← this, Matrix.mul_assoc]
  simp only [Matrix.mul_apply, transpose_apply, dotProduct, mulVec, Matrix.col_apply]

theorem nonneg (h : IsGEigh A M w V) (hA : SPSD A) (k : Fin n) : 0 ≤ w k := by
  have h1 := hA.2 (V.col k)
  rw [h.col k, dotProduct_smul, h.col_dot, if_pos rfl, smul_eq_mul, mul_one] at h1
  exact h1

theorem inv (h : IsGEigh A M w V) : V * (Vᵀ * M) = 1 := mul_eq_one_comm.mp h.orth

/-- Expansion of a vector in the eigenvectors. -/
theorem expand (h : IsGEigh A M w V) (x : Fin n → ℝ) : x = ∑ k, (V.col k ⬝ᵥ M *ᵥ x) • V.col k := by
  have e : V *ᵥ ((Vᵀ * M) *ᵥ x) = x := by rw [mulVec_mulVec, h.inv, one_mulVec]
  conv_lhs => rw [← e]
  funext i
  simp only [mulVec, dotProduct, Finset.sum_apply, Pi.smul_apply, smul_eq_mul, Matrix.col_apply]
  refine Finset.sum_congr rfl fun k _ => ?_
  rw [mul_comm]
  congr 1
  rw [← mulVec_eq_sum_aux M V x k]
where
  mulVec_eq_sum_aux (M V : Matrix (Fin n) (Fin n) ℝ) (x : Fin n → ℝ) (k : Fin n) :
      ∑ i, V i k * ∑ j, M i j * x j = ∑ j, (Vᵀ * M) k j * x j := by
    simp only [Matrix.mul_apply, transpose_apply, Finset.mul_sum, Finset.sum_mul]
    rw [Finset.sum_comm]
    exact Finset.sum_congr rfl fun _ _ => Finset.sum_congr rfl fun _ _ => by ring

theorem coef_mul (h : IsGEigh A M w V) (hA : Aᵀ = A) (hM : Mᵀ = M) (k : Fin n) (x : Fin n → ℝ) :
    V.col k ⬝ᵥ A *ᵥ x = w k * (V.col k ⬝ᵥ M *ᵥ x) := by
  rw [sym_dot hA, h.col, dotProduct_smul, sym_dot hM, smul_eq_mul]

/-- The kernel is spanned by the eigenvectors with eigenvalue zero. -/
theorem mem_ker_iff (h : IsGEigh A M w V) (hA : Aᵀ = A) (hM : Mᵀ = M) (x : Fin n → ℝ) :
    A *ᵥ x = 0 ↔ ∀ k, w k ≠ 0 → V.col k ⬝ᵥ M *ᵥ x = 0 := by
  constructor
  · intro h0 k hk
    have e := h.coef_mul hA hM k x
    rw [h0, dotProduct_zero] at e
    exact (mul_eq_zero.mp e.symm).resolve_left hk
  · intro h0
    rw [h.expand x, mulVec_sum]
    refine Finset.sum_eq_zero fun k _ => ?_
    rw [mulVec_smul, h.col, smul_smul]
    by_cases hk : w k = 0
    · rw [hk, mul_zero, zero_smul]
    · rw [h0 k hk, zero_mul, zero_smul]

theorem rank_add (h : IsGEigh A M w V) : A.rank + (univ.filter fun k => w k = 0).card = n := by
  have e : A = (M * V) * diagonal w * (Vᵀ * M) := by
    calc A = A * (V * (Vᵀ * M)) := by rw [h.inv, Matrix.mul_one]
      _ = _ := by rw [← Matrix.mul_assoc, h.eig]
  have u1 : IsUnit (Vᵀ * M).det := by
    rw [← isUnit_iff_isUnit_det]; exact IsUnit.of_mul_eq_one V h.orth
  have u2 : IsUnit (M * V).det := by
    rw [← isUnit_iff_isUnit_det]
    refine IsUnit.of_mul_eq_one Vᵀ (mul_eq_one_comm.mp ?_)
    rw [← Matrix.mul_assoc]; exact h.orth
  rw [e, rank_mul_eq_left_of_isUnit_det _ _ u1, rank_mul_eq_right_of_isUnit_det _ _ u2, rank_diagonal, Fintype.card_subtype]
  have := Finset.card_filter_add_card_filter_not (s := (univ : Finset (Fin n))) (fun k => w k = 0)
  rw [card_univ, Fintype.card_fin] at this
  have e2 : (univ.filter fun k => w k ≠ 0).card = (univ.filter fun k => ¬ w k = 0).card := rfl
  omega

/-- The zero eigenvalues come first, and there are as many as the kernel has dimensions. -/
theorem zero_iff (h : IsGEigh A M w V) (hA : SPSD A) (k : Fin n) :
    w k = 0 ↔ k.1 < finrank ℝ (LinearMap.ker A.mulVecLin) := by
  have hr := h.rank_add
  have hn : A.rank + finrank ℝ (LinearMap.ker A.mulVecLin) = n := by
    have := LinearMap.finrank_range_add_finrank_ker A.mulVecLin
    simpa [Matrix.rank] using this
  have hc : finrank ℝ (LinearMap.ker A.mulVecLin) = (univ.filter fun k => w k = 0).card := by omega
  rw [hc]
  constructor
  · intro h0
    have hsub : (Finset.Iic k) ⊆ univ.filter fun k => w k = 0 := by
      intro j hj
      have hj := Finset.mem_Iic.mp hj
      exact Finset.mem_filter.mpr ⟨mem_univ _, le_antisymm (h0 ▸ h.sorted hj) (h.nonneg hA j)⟩
    have := Finset.card_le_card hsub
    rw [Fin.card_Iic] at this
    omega
  · intro hk
    by_contra h0
    have hsub : (univ.filter fun k => w k = 0) ⊆ Finset.Iio k := by
      intro j hj
      have hj := (Finset.mem_filter.mp hj).2
      refine Finset.mem_Iio.mpr (lt_of_not_ge fun hle => h0 ?_)
      exact le_antisymm (hj ▸ h.sorted hle) (h.nonneg hA k)
    have := Finset.card_le_card hsub
    rw [Fin.card_Iio] at this
    omega

end Spec.IsGEigh

theorem Spec.IsEigh.toG {n : Nat} {A : Matrix (Fin n) (Fin n) ℝ} {w : Fin n → ℝ} {V : Matrix (Fin n) (Fin n) ℝ} (h : IsEigh A w V) :
    IsGEigh A 1 w V := ⟨by rw [Matrix.mul_one]; exact h.orth, by rw [Matrix.one_mul]; exact h.eig, h.sorted⟩

end Mrx
