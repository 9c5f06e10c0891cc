import Verif.Model.Drum
import Verif.Proofs.Maps
import Verif.Proofs.Setting
import Verif.Props.Geometry
import Mathlib.Analysis.Calculus.FDeriv.Equiv
import Mathlib.Topology.Algebra.Module.Equiv

/-! # The drum map: its Jacobian matrix, and how everything scales with the radius -/

set_option linter.unusedVariables false
set_option linter.unusedSectionVars false

namespace Mrx
open Matrix Real Finset

/-- The block shape of the Jacobian matrix of a drum map. -/
theorem jacfwd_drum {a : ℝ → ℝ} {x : V3} (h : DifferentiableAt ℝ (drumshapeMap a) x) :
    ∃ p q r s : ℝ, jacfwd (drumshapeMap a) x = !![p, q, 0; 0, 0, -1; r, s, 0] := by
  have hc : ∀ i, HasFDerivAt (fun y => drumshapeMap a y i) ((ContinuousLinearMap.proj i).comp (fderiv ℝ (drumshapeMap a) x)) x := by
    intro i
    exact (hasFDerivAt_apply i (drumshapeMap a x)).comp x h.hasFDerivAt
  have hz : ∀ i, i ≠ 1 → fderiv ℝ (drumshapeMap a) x (Pi.single 2 1) i = 0 := by
    intro i hi
    have h1 : HasDerivAt (fun t : ℝ => x + t • (Pi.single 2 1 : V3)) (Pi.single 2 1) 0 := by
      have := ((hasDerivAt_id (0 : ℝ)).smul_const (Pi.single 2 1 : V3)).const_add x
      simpa using this
    have h2 := (show HasFDerivAt (fun y => drumshapeMap a y i) _ (x + (0 : ℝ) • (Pi.single 2 1 : V3)) by simpa using hc i).comp_hasDerivAt 0 h1
    have h3 : (fun y => drumshapeMap a y i) ∘ (fun t : ℝ => x + t • (Pi.single 2 1 : V3)) = fun _ => drumshapeMap a x i := by
      funext t
      have e0 : (x + t • (Pi.single 2 1 : V3)) 0 = x 0 := by simp
      have e1 : (x + t • (Pi.single 2 1 : V3)) 1 = x 1 := by simp
      simp only [Function.comp, drumshapeMap, e0, e1]
      fin_cases i
      · rfl
      · exact absurd rfl hi
      · rfl
    rw [h3] at h2
    exact h2.unique (hasDerivAt_const _ _)
  have h1 : ∀ j, fderiv ℝ (drumshapeMap a) x (Pi.single j 1) 1 = -(Pi.single j 1 : V3) 2 := by
    intro j
    have e : (fun y => drumshapeMap a y 1) = fun y : V3 => -y 2 := rfl
    have := hc 1
    rw [e] at this
    have u := this.unique (coord_hasFDerivAt 2 x).neg
    have := congrArg (fun L => L (Pi.single j 1)) u
    simpa using this
  refine ⟨jacfwd (drumshapeMap a) x 0 0, jacfwd (drumshapeMap a) x 0 1, jacfwd (drumshapeMap a) x 2 0, jacfwd (drumshapeMap a) x 2 1, ?_⟩
  ext i j
  fin_cases i <;> fin_cases j
  · rfl
  · rfl
  · exact hz 0 (by decide)
  · exact (h1 0).trans (by simp)
  · exact (h1 1).trans (by simp)
  · exact (h1 2).trans (by simp)
  · rfl
  · rfl
  · exact hz 2 (by decide)

theorem jacfwd_not_diff {F : V3 → V3} {x : V3} (h : ¬ DifferentiableAt ℝ F x) : jacfwd F x = 0 := by
  ext i j
  unfold jacfwd
  rw [fderiv_zero_of_not_differentiableAt h]
  rfl

/-- Scaling of the cross section. -/
theorem jacfwd_drum_scale (a : ℝ → ℝ) {c : ℝ} (hc : c ≠ 0) (x : V3) :
    jacfwd (drumshapeMap fun χ => c * a χ) x = diagonal ![c, 1, c] * jacfwd (drumshapeMap a) x := by
  have hu : ∀ i, (![c, 1, c] : V3) i ≠ 0 := by intro i; fin_cases i <;> simp [hc]
  obtain ⟨L, hL⟩ : ∃ L : V3 ≃L[ℝ] V3, ∀ y i, L y i = (![c, 1, c] : V3) i * y i :=
    ⟨ContinuousLinearEquiv.piCongrRight fun i => ContinuousLinearEquiv.unitsEquivAut ℝ (Units.mk0 ((![c, 1, c] : V3) i) (hu i)),
      fun y i => by simp [mul_comm]⟩
  have e : drumshapeMap (fun χ => c * a χ) = L ∘ drumshapeMap a := by
    funext y i
    rw [Function.comp, hL]
    unfold drumshapeMap
    fin_cases i <;> simp <;> ring
  ext i j
  rw [diagonal_mul]
  unfold jacfwd
  rw [e, L.comp_fderiv]
  exact hL _ i

/-- With one cell in `z` the third component of the gradient getter vanishes. -/
theorem Seq.diffZ_one (S : Seq ℝ) (h : S.L0.dΛ2.n ≤ 1) (nt i j : Nat) : S.diffZ nt i j = 0 := by
  unfold Seq.diffZ Seq.dlamZ Table.get
  have e : ∀ m, min m (S.L0.dΛ2.n - 1) = 0 := by intro m; omega
  simp only [e, ite_self, sub_self]

theorem Seq.getD0_two (S : Seq ℝ) (h : S.L0.dΛ2.n ≤ 1) (i j : Nat) : S.getDLambda0 i j 2 = 0 := by
  unfold Seq.getDLambda0
  simp only [S.diffZ_one h]
  norm_num

/-- The determinant of the metric is the square of the Jacobian. -/
theorem inv33Det_metric (A : M33) : inv33Det (Aᵀ * A) = A.det ^ 2 := by
  rw [Props.inv33Det_eq, det_mul, det_transpose]; ring

theorem abs_sq_lt (d : ℝ) : |d ^ 2| < 1e-10 ↔ |d| < 1e-5 := by
  rw [abs_of_nonneg (sq_nonneg d), ← sq_abs d]
  have := abs_nonneg d
  constructor
  · intro h; by_contra hc
    push Not at hc
    nlinarith
  · intro h; nlinarith

/-- The weight of the stiffness matrix does not change when the cross section is scaled (in the two directions that count). -/
theorem drum_weight (a : ℝ → ℝ) {c : ℝ} (hc : c ≠ 0) (x : V3)
    (ht : |(jacfwd (drumshapeMap a) x).det| < 1e-5 ↔ c ^ 2 * |(jacfwd (drumshapeMap a) x).det| < 1e-5) :
    (jacfwd (drumshapeMap fun χ => c * a χ) x).det = c ^ 2 * (jacfwd (drumshapeMap a) x).det
    ∧ ∀ k l : Fin 3, k ≠ 2 → l ≠ 2 →
      inv33 ((jacfwd (drumshapeMap fun χ => c * a χ) x)ᵀ * jacfwd (drumshapeMap fun χ => c * a χ) x) k l * (jacfwd (drumshapeMap fun χ => c * a χ) x).det
        = inv33 ((jacfwd (drumshapeMap a) x)ᵀ * jacfwd (drumshapeMap a) x) k l * (jacfwd (drumshapeMap a) x).det := by
  have hs := jacfwd_drum_scale a hc x
  have hd : (jacfwd (drumshapeMap fun χ => c * a χ) x).det = c ^ 2 * (jacfwd (drumshapeMap a) x).det := by
    rw [hs, det_mul, det_diagonal, Fin.prod_univ_three]; change c * 1 * c * _ = _; ring
  refine ⟨hd, fun k l hk hl => ?_⟩
  by_cases hb : |(jacfwd (drumshapeMap a) x).det| < 1e-5
  · have hb' := ht.mp hb
    have e1 : inv33 ((jacfwd (drumshapeMap a) x)ᵀ * jacfwd (drumshapeMap a) x) = 0 := by
      unfold inv33; rw [if_pos]; rw [inv33Det_metric]; exact (abs_sq_lt _).mpr hb
    have e2 : inv33 ((jacfwd (drumshapeMap fun χ => c * a χ) x)ᵀ * jacfwd (drumshapeMap fun χ => c * a χ) x) = 0 := by
      unfold inv33; rw [if_pos]; rw [inv33Det_metric]; refine (abs_sq_lt _).mpr ?_
      rw [hd, abs_mul, abs_of_nonneg (sq_nonneg c)]; exact hb'
    rw [e1, e2]; simp
  · have hb' : ¬ c ^ 2 * |(jacfwd (drumshapeMap a) x).det| < 1e-5 := fun h => hb (ht.mpr h)
    have hdiff : DifferentiableAt ℝ (drumshapeMap a) x := by
      by_contra hn
      rw [jacfwd_not_diff hn] at hb
      apply hb; simp; norm_num
    have n1 : ¬ |inv33Det ((jacfwd (drumshapeMap a) x)ᵀ * jacfwd (drumshapeMap a) x)| < 1e-10 := by
      rw [inv33Det_metric, abs_sq_lt]; exact hb
    have n2 : ¬ |inv33Det ((jacfwd (drumshapeMap fun χ => c * a χ) x)ᵀ * jacfwd (drumshapeMap fun χ => c * a χ) x)| < 1e-10 := by
      rw [inv33Det_metric, abs_sq_lt, hd, abs_mul, abs_of_nonneg (sq_nonneg c)]; exact hb'
    have z1 : (jacfwd (drumshapeMap a) x).det ≠ 0 := by
      intro h0; apply hb; rw [h0]; norm_num
    unfold inv33
    rw [if_neg n1, if_neg n2, inv33Det_metric, inv33Det_metric, hd, hs]
    obtain ⟨p, q, r, s, hJ⟩ := jacfwd_drum hdiff
    rw [hJ] at z1 ⊢
    have hdet : (!![p, q, 0; 0, 0, -1; r, s, 0] : M33).det = p * s - q * r := by rw [det_fin_three]; simp; ring
    rw [hdet] at z1 ⊢
    fin_cases k <;> fin_cases l <;> first | exact absurd rfl hk | exact absurd rfl hl | skip
    all_goals
      simp [Matrix.mul_apply, Fin.sum_univ_three, diagonal]
      field_simp
      try ring

end Mrx
