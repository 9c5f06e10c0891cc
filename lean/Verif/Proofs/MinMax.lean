import Verif.Proofs.Eigh

/-! # Comparison of two symmetric eigenvalue problems (Courant-Fischer) -/

set_option linter.unusedSectionVars false
set_option linter.unusedVariables false

namespace Mrx
open Matrix Spec Finset Module

section
variable {n : Nat} {A M A' M' : Matrix (Fin n) (Fin n) ℝ} {w w' : Fin n → ℝ} {V V' : Matrix (Fin n) (Fin n) ℝ}

theorem geigh_quad (h : IsGEigh A M w V) (hA : Aᵀ = A) (hM : Mᵀ = M) (x : Fin n → ℝ) :
    x ⬝ᵥ A *ᵥ x = ∑ k, w k * (V.col k ⬝ᵥ M *ᵥ x) ^ 2 ∧ x ⬝ᵥ M *ᵥ x = ∑ k, (V.col k ⬝ᵥ M *ᵥ x) ^ 2 := by
  have e := h.expand x
  constructor
  · conv_lhs => rw [e]
    rw [sum_dotProduct, ← e]
    exact sum_congr rfl fun k _ => by rw [smul_dotProduct, h.coef_mul hA hM, smul_eq_mul]; ring
  · conv_lhs => rw [e]
    rw [sum_dotProduct, ← e]
    exact sum_congr rfl fun k _ => by rw [smul_dotProduct, smul_eq_mul]; ring

/-- A vector in the span of the first `k + 1` eigenvectors of the second problem that is orthogonal to the first `k` of the first. -/
theorem exists_test_vector (h : IsGEigh A M w V) (h' : IsGEigh A' M' w' V') (hM' : M'ᵀ = M') (k : Fin n) :
    ∃ x : Fin n → ℝ, x ≠ 0 ∧ (∀ j, j < k → V.col j ⬝ᵥ M *ᵥ x = 0) ∧ (∀ j, k < j → V'.col j ⬝ᵥ M' *ᵥ x = 0) := by
  have hk := k.2
  have l0 : k.1 ≤ n := by omega
  have l1 : k.1 + 1 ≤ n := by omega
  obtain ⟨T, hT⟩ : ∃ T : Matrix (Fin k.1) (Fin (k.1 + 1)) ℝ, ∀ (j : Fin k.1) (i : Fin (k.1 + 1)), T j i =
      V.col (Fin.castLE l0 j) ⬝ᵥ M *ᵥ V'.col (Fin.castLE l1 i) :=
    ⟨fun (j : Fin k.1) (i : Fin (k.1 + 1)) => V.col (Fin.castLE l0 j) ⬝ᵥ M *ᵥ V'.col (Fin.castLE l1 i), fun _ _ => rfl⟩
  have hker : LinearMap.ker T.mulVecLin ≠ ⊥ := LinearMap.ker_ne_bot_of_finrank_lt (by simp)
  obtain ⟨c, hc, hc0⟩ := (Submodule.ne_bot_iff _).mp hker
  obtain ⟨x, hx⟩ : ∃ x : Fin n → ℝ, x = ∑ i : Fin (k.1 + 1), c i • V'.col (Fin.castLE l1 i) := ⟨_, rfl⟩
  have dot' : ∀ j : Fin n, V'.col j ⬝ᵥ M' *ᵥ x = ∑ i : Fin (k.1 + 1), c i * (if j = Fin.castLE l1 i then 1 else 0) := by
    intro j
    rw [hx, mulVec_sum, dotProduct_sum]
    exact sum_congr rfl fun i _ => by rw [mulVec_smul, dotProduct_smul, h'.col_dot, smul_eq_mul]
  refine ⟨x, ?_, fun j hj => ?_, fun j hj => ?_⟩
  · rintro rfl
    apply hc0
    funext i
    have := dot' (Fin.castLE l1 i)
    rw [mulVec_zero, dotProduct_zero, sum_eq_single i] at this
    · simpa using this.symm
    · intro b _ hb
      rw [if_neg (by intro e; exact hb (Fin.castLE_injective l1 e).symm), mul_zero]
    · simp
  · have := congrFun (LinearMap.mem_ker.mp hc) ⟨j.1, hj⟩
    rw [hx, mulVec_sum, dotProduct_sum]
    rw [mulVecLin_apply] at this
    refine Eq.trans (sum_congr rfl fun i _ => ?_) this
    rw [mulVec_smul, dotProduct_smul, smul_eq_mul]
    change _ = T ⟨j.1, hj⟩ i * c i
    rw [hT, mul_comm]
    rfl
  · rw [dot']
    refine sum_eq_zero fun i _ => ?_
    rw [if_neg, mul_zero]
    rintro rfl
    have := i.2
    have h3 : k.1 < i.1 := hj
    omega

/-- If the Rayleigh quotient of the first problem is nowhere larger, neither are its eigenvalues. -/
theorem geigh_compare (h : IsGEigh A M w V) (h' : IsGEigh A' M' w' V') (hA : Aᵀ = A) (hM : SPD M) (hA' : A'ᵀ = A') (hM' : SPD M')
    (hR : ∀ x, (x ⬝ᵥ A *ᵥ x) * (x ⬝ᵥ M' *ᵥ x) ≤ (x ⬝ᵥ A' *ᵥ x) * (x ⬝ᵥ M *ᵥ x)) (k : Fin n) : w k ≤ w' k := by
  obtain ⟨x, hx, h1, h2⟩ := exists_test_vector h h' hM'.1 k
  have p := hM.2 x hx
  have p' := hM'.2 x hx
  have lo : w k * (x ⬝ᵥ M *ᵥ x) ≤ x ⬝ᵥ A *ᵥ x := by
    rw [(geigh_quad h hA hM.1 x).1, (geigh_quad h hA hM.1 x).2, mul_sum]
    refine sum_le_sum fun j _ => ?_
    by_cases hj : j < k
    · rw [h1 j hj]; simp
    · exact mul_le_mul_of_nonneg_right (h.sorted (not_lt.mp hj)) (sq_nonneg _)
  have hi : x ⬝ᵥ A' *ᵥ x ≤ w' k * (x ⬝ᵥ M' *ᵥ x) := by
    rw [(geigh_quad h' hA' hM'.1 x).1, (geigh_quad h' hA' hM'.1 x).2, mul_sum]
    refine sum_le_sum fun j _ => ?_
    by_cases hj : k < j
    · rw [h2 j hj]; simp
    · exact mul_le_mul_of_nonneg_right (h'.sorted (not_lt.mp hj)) (sq_nonneg _)
  have := hR x
  have key : w k * ((x ⬝ᵥ M *ᵥ x) * (x ⬝ᵥ M' *ᵥ x)) ≤ w' k * ((x ⬝ᵥ M *ᵥ x) * (x ⬝ᵥ M' *ᵥ x)) := by
    nlinarith
  exact le_of_mul_le_mul_right key (mul_pos p p')

/-- The eigenvalues of a generalised problem are unique. -/
theorem geigh_unique (h : IsGEigh A M w V) (h' : IsGEigh A M w' V') (hA : Aᵀ = A) (hM : SPD M) : w = w' :=
  funext fun k => le_antisymm (geigh_compare h h' hA hM hA hM (fun _ => le_refl _) k) (geigh_compare h' h hA hM hA hM (fun _ => le_refl _) k)

end
end Mrx
