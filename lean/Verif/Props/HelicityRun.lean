import Verif.Props.Drift
import Verif.Props.ProgressRun

/-!
# C109: a relaxation keeps the helicity, and with it a part of the energy

`run_relaxation_loop` (`mrx/utils.py`) with `TimeStepper` (`mrx/relaxation.py`) on polar sequences with Dirichlet conditions. The step-by-step
bound of C47 is summed over a run.
-/

set_option linter.unusedSectionVars false
set_option linter.unusedVariables false

namespace Mrx.Props
open Spec Matrix DeRham

variable {T : Stepper}

/-- The time a run covers in its first `k` iterations: the sum of the time steps of the iterations that were executed and accepted. -/
noncomputable def runTime (cfg : RelaxConfig) (env : RelaxEnv T.Field (Matrix (Fin T.D.m2) (Fin T.D.m2) ℝ)) (start : ℝ) (s : T.St)
    (t : Trace T.Field) (k : Nat) : ℝ := by
  classical
  exact ∑ i ∈ (Finset.range k).filter (fun i => (relaxAfter cfg env start s t i).stopped = false ∧
    ¬ rejected cfg (env.step cfg (relaxAfter cfg env start s t i).state)), (relaxAfter cfg env start s t i).state.dt

theorem ell1_le {n : Nat} (v : Fin n → ℝ) : ell1 v ≤ n * ‖v‖ := by
  unfold ell1
  calc ∑ i, |v i| ≤ ∑ _i : Fin n, ‖v‖ := Finset.sum_le_sum fun i _ => norm_le_pi_norm v i
    _ = n * ‖v‖ := by simp

theorem mulVec_bound {m n : Nat} (A : Matrix (Fin m) (Fin n) ℝ) : ∃ c, 0 ≤ c ∧ ∀ x, ‖A *ᵥ x‖ ≤ c * ‖x‖ :=
  ⟨‖(LinearMap.toContinuousLinearMap A.mulVecLin)‖, norm_nonneg _, fun x => (LinearMap.toContinuousLinearMap A.mulVecLin).le_opNorm x⟩

theorem ell1_bound {m n : Nat} (A : Matrix (Fin m) (Fin n) ℝ) : ∃ c, 0 ≤ c ∧ ∀ x, ell1 (A *ᵥ x) ≤ c * ‖x‖ := by
  obtain ⟨c, hc, b⟩ := mulVec_bound A
  refine ⟨m * c, by positivity, fun x => (ell1_le _).trans ?_⟩
  rw [mul_assoc]
  exact mul_le_mul_of_nonneg_left (b x) (by positivity)

theorem ell1_nonneg {n : Nat} (v : Fin n → ℝ) : 0 ≤ ell1 v := Finset.sum_nonneg fun i _ => abs_nonneg _

theorem ibpEps_nonneg (ns ps : Nat × Nat × Nat) (q : Nat) : 0 ≤ ibpEps ns ps q := le_max_of_le_left (dirEps_nonneg _ _ _)

section
variable {ns ps : Nat × Nat × Nat} {q : Nat} {types : String × String × String} {F : V3 → V3} {polar dirichlet : Bool}
  (h : Admissible ns ps q types F polar dirichlet T.D)
include h

/-- The electric field is bounded on bounded sets of midpoints. -/
theorem E_bound (hn : T.newton = false) : ∃ κ, 0 ≤ κ ∧ ∀ s : T.St, ‖T.E s‖ ≤ κ * ‖T.Bmid s‖ ^ 3 + κ * |s.eta| * ‖T.Bmid s‖ := by
  obtain ⟨c1, hc1, b1⟩ := bilin_bound (fun x y : T.Field => ((1 + T.D.dd2)⁻¹) ^ T.gamma *ᵥ
    ((if T.forceFree then 1 else T.D.leray T.pinv) *ᵥ (T.D.M2⁻¹ *ᵥ T.D.P1x1to2 (T.D.weakCurl *ᵥ x) (T.D.P12 *ᵥ y))))
    (fun c w w' u => by simp only [mulVec_add, mulVec_smul, lin112_1 h])
    (fun c w u u' => by simp only [mulVec_add, mulVec_smul, lin112_2 h])
  obtain ⟨c2, hc2, b2⟩ := bilin_bound (fun x z : T.Field => T.D.M1⁻¹ *ᵥ T.D.P2x1to1 x (T.D.P12 *ᵥ z))
    (fun c w w' u => by simp only [mulVec_add, mulVec_smul, lin211_1 h])
    (fun c w u u' => by simp only [mulVec_add, mulVec_smul, lin211_2 h])
  obtain ⟨c3, hc3, b3⟩ := mulVec_bound T.D.weakCurl
  refine ⟨c2 * c1 + c3, by positivity, fun s => ?_⟩
  have hf : T.f s = (if T.forceFree then 1 else T.D.leray T.pinv) *ᵥ T.JxH s := by
    unfold Stepper.f; split_ifs <;> simp
  have hu : ‖T.u s‖ ≤ c1 * ‖T.Bmid s‖ * ‖T.Bmid s‖ := by
    have e : T.u s = ((1 + T.D.dd2)⁻¹) ^ T.gamma *ᵥ ((if T.forceFree then 1 else T.D.leray T.pinv) *ᵥ
        (T.D.M2⁻¹ *ᵥ T.D.P1x1to2 (T.D.weakCurl *ᵥ T.Bmid s) (T.D.P12 *ᵥ T.Bmid s))) := by
      unfold Stepper.u
      rw [hn, if_neg (by simp)]
      unfold Stepper.u0
      rw [iterate_mulVec, hf]
      rfl
    rw [e]; exact b1 _ _
  have e1 : ‖T.D.M1⁻¹ *ᵥ T.D.P2x1to1 (T.u s) (T.Hh s)‖ ≤ c2 * (c1 * ‖T.Bmid s‖ * ‖T.Bmid s‖) * ‖T.Bmid s‖ :=
    (b2 _ _).trans (mul_le_mul_of_nonneg_right (mul_le_mul_of_nonneg_left hu hc2) (norm_nonneg _))
  have e2 : ‖s.eta • T.J s‖ ≤ |s.eta| * (c3 * ‖T.Bmid s‖) := by
    rw [norm_smul, Real.norm_eq_abs]
    exact mul_le_mul_of_nonneg_left (b3 _) (abs_nonneg _)
  have n := norm_nonneg (T.Bmid s)
  have a1 : 0 ≤ c3 * ‖T.Bmid s‖ ^ 3 := by positivity
  have a2 : 0 ≤ c2 * c1 * |s.eta| * ‖T.Bmid s‖ := by positivity
  unfold Stepper.E
  refine (norm_sub_le _ _).trans ?_
  nlinarith

end

section
variable {ns ps : Nat × Nat × Nat} {q : Nat} {types : String × String × String} {F : V3 → V3}
  (h : Admissible ns ps q types F true true T.D) (hc : Compatible ns types true)
include h hc

/-- One evaluation of the midpoint equations changes the helicity by a constant times the step, times residual + resistivity + decimals. -/
theorem eval_drift (hn : T.newton = false) (R : ℝ) : ∃ C, 0 < C ∧ ∀ p : T.St, T.D.strongDiv *ᵥ p.Bn = 0 → T.D.norm2 p.Bn ≤ R →
    T.D.norm2 (T.Bnext p) ≤ R → T.D.norm2 p.Bguess ≤ R → 0 ≤ p.dt → 0 ≤ p.eta → p.eta ≤ R →
    |T.D.helicity (T.Bnext p) - T.D.helicity p.Bn| ≤ C * p.dt * (T.D.norm2 (T.Bnext p - p.Bguess) + p.eta + ibpEps ns ps q) := by
  obtain ⟨κ, hκ, bE⟩ := E_bound h hn
  obtain ⟨cl, hcl, bl⟩ := quad_lower (C31_mass_matrices_definite h).2.2.1
  obtain ⟨cu, hcu, bu⟩ := quad_upper T.D.M1
  obtain ⟨a1, ha1, b1⟩ := ell1_bound (T.D.E1ᵀ * (T.D.dd1⁻¹ * T.D.weakCurl))
  obtain ⟨a2, ha2, b2⟩ := ell1_bound (T.D.E1ᵀ * (T.D.dd1⁻¹ * T.D.weakCurl) * T.D.strongCurl)
  obtain ⟨a3, ha3, b3⟩ := ell1_bound (T.D.E0ᵀ * (T.D.dd0⁻¹ * T.D.weakDiv))
  obtain ⟨a4, ha4, b4⟩ := ell1_bound T.D.E2ᵀ
  obtain ⟨j, hj, bj⟩ := bilin_bound (c := 1) (fun (x y : T.Field) _ => (T.D.weakCurl *ᵥ x) ⬝ᵥ T.D.M12 *ᵥ y)
    (fun s w w' u => by
      funext i
      simp only [mulVec_add, mulVec_smul, add_dotProduct, smul_dotProduct, Pi.add_apply, Pi.smul_apply, smul_eq_mul])
    (fun s w u u' => by
      funext i
      simp only [mulVec_add, mulVec_smul, dotProduct_add, dotProduct_smul, Pi.add_apply, Pi.smul_apply, smul_eq_mul])
  obtain ⟨X, hX⟩ : ∃ X, X = cl * |R| := ⟨_, rfl⟩
  obtain ⟨e, he⟩ : ∃ e, e = κ * X ^ 3 + κ * |R| * X := ⟨_, rfl⟩
  obtain ⟨b, hb⟩ : ∃ b, b = 4 * ibpBound ns ps ^ 2 * (a1 * X * (a2 * e) + a3 * e * (a4 * (2 * X))) := ⟨_, rfl⟩
  have X0 : 0 ≤ X := by rw [hX]; positivity
  have e0 : 0 ≤ e := by rw [he]; positivity
  have b0 : 0 ≤ b := by rw [hb]; positivity
  refine ⟨cu * e + b + 2 * (j * X * X) + 1, by positivity, ?_⟩
  intro p hdiv r1 r2 r3 hdt heta hetaR
  have R1 : R ≤ |R| := le_abs_self R
  have n1 : ‖p.Bn‖ ≤ X := by
    rw [hX]; exact (bl p.Bn).trans (mul_le_mul_of_nonneg_left (r1.trans R1) hcl.le)
  have n2 : ‖T.Bnext p‖ ≤ X := by
    rw [hX]; exact (bl (T.Bnext p)).trans (mul_le_mul_of_nonneg_left (r2.trans R1) hcl.le)
  have n3 : ‖p.Bguess‖ ≤ X := by
    rw [hX]; exact (bl p.Bguess).trans (mul_le_mul_of_nonneg_left (r3.trans R1) hcl.le)
  have n4 : ‖T.Bmid p‖ ≤ X := by
    unfold Stepper.Bmid
    rw [norm_smul, Real.norm_eq_abs, abs_of_pos (by norm_num : (0 : ℝ) < 1 / 2)]
    have := norm_add_le p.Bguess p.Bn
    linarith
  have nE : ‖T.E p‖ ≤ e := by
    refine (bE p).trans ?_
    rw [he, abs_of_nonneg heta]
    have := norm_nonneg (T.Bmid p)
    have := hetaR.trans R1
    gcongr
  have q1 : √(T.E p ⬝ᵥ T.D.M1 *ᵥ T.E p) ≤ cu * e := (bu _).trans (mul_le_mul_of_nonneg_left nE hcu.le)
  have q2 : ell1 (T.D.E1ᵀ *ᵥ T.D.vectorPotential p.Bn) ≤ a1 * X := by
    have := b1 p.Bn
    rw [← mulVec_mulVec, ← mulVec_mulVec] at this
    exact this.trans (mul_le_mul_of_nonneg_left n1 ha1)
  have q3 : ell1 (T.D.E1ᵀ *ᵥ T.D.vectorPotential (T.D.strongCurl *ᵥ T.E p)) ≤ a2 * e := by
    have := b2 (T.E p)
    rw [← mulVec_mulVec, ← mulVec_mulVec, ← mulVec_mulVec] at this
    exact this.trans (mul_le_mul_of_nonneg_left nE ha2)
  have q4 : ell1 (T.D.E0ᵀ *ᵥ (T.D.dd0⁻¹ *ᵥ (T.D.weakDiv *ᵥ T.E p))) ≤ a3 * e := by
    have := b3 (T.E p)
    rw [← mulVec_mulVec, ← mulVec_mulVec] at this
    exact this.trans (mul_le_mul_of_nonneg_left nE ha3)
  have q5 : ell1 (T.D.E2ᵀ *ᵥ (p.Bn + T.Bnext p)) ≤ a4 * (2 * X) := by
    refine (b4 _).trans (mul_le_mul_of_nonneg_left ((norm_add_le _ _).trans ?_) ha4)
    linarith
  have q6 : |T.J p ⬝ᵥ T.D.M12 *ᵥ T.Bmid p| ≤ j * X * X := by
    refine (norm_le_pi_norm (fun _ : Fin 1 => (T.D.weakCurl *ᵥ T.Bmid p) ⬝ᵥ T.D.M12 *ᵥ T.Bmid p) 0).trans ((bj _ _).trans ?_)
    gcongr
  have main := C47_helicity_drift h hc p hdiv
  rw [abs_of_nonneg hdt] at main
  obtain ⟨res, hres⟩ : ∃ res, res = T.D.norm2 (T.Bnext p - p.Bguess) := ⟨_, rfl⟩
  have res0 : 0 ≤ res := by rw [hres]; exact norm2_nonneg _ _
  have eps0 := ibpEps_nonneg ns ps q
  have k1 : √(T.E p ⬝ᵥ T.D.M1 *ᵥ T.E p) * res ≤ cu * e * res := mul_le_mul_of_nonneg_right q1 res0
  have k2 : ibpEps ns ps q * 4 * ibpBound ns ps ^ 2 *
        (ell1 (T.D.E1ᵀ *ᵥ T.D.vectorPotential p.Bn) * ell1 (T.D.E1ᵀ *ᵥ T.D.vectorPotential (T.D.strongCurl *ᵥ T.E p))
        + ell1 (T.D.E0ᵀ *ᵥ (T.D.dd0⁻¹ *ᵥ (T.D.weakDiv *ᵥ T.E p))) * ell1 (T.D.E2ᵀ *ᵥ (p.Bn + T.Bnext p))) ≤ b * ibpEps ns ps q := by
    have z1 := ell1_nonneg (T.D.E1ᵀ *ᵥ T.D.vectorPotential p.Bn)
    have z2 := ell1_nonneg (T.D.E1ᵀ *ᵥ T.D.vectorPotential (T.D.strongCurl *ᵥ T.E p))
    have z3 := ell1_nonneg (T.D.E0ᵀ *ᵥ (T.D.dd0⁻¹ *ᵥ (T.D.weakDiv *ᵥ T.E p)))
    have z4 := ell1_nonneg (T.D.E2ᵀ *ᵥ (p.Bn + T.Bnext p))
    have m1 := mul_le_mul q2 q3 z2 (z1.trans q2)
    have m2 := mul_le_mul q4 q5 z4 (z3.trans q4)
    calc _ ≤ ibpEps ns ps q * 4 * ibpBound ns ps ^ 2 * (a1 * X * (a2 * e) + a3 * e * (a4 * (2 * X))) :=
          mul_le_mul_of_nonneg_left (add_le_add m1 m2) (by positivity)
      _ = b * ibpEps ns ps q := by rw [hb]; ring
  have k3 : |2 * p.dt * p.eta * (T.J p ⬝ᵥ T.D.M12 *ᵥ T.Bmid p)| ≤ p.dt * (2 * (j * X * X) * p.eta) := by
    rw [abs_mul, abs_of_nonneg (by positivity : 0 ≤ 2 * p.dt * p.eta)]
    have := mul_le_mul_of_nonneg_left q6 (by positivity : 0 ≤ 2 * p.dt * p.eta)
    linarith
  rw [← hres] at main
  have k4 : |T.D.helicity (T.Bnext p) - T.D.helicity p.Bn| ≤
      |T.D.helicity (T.Bnext p) - T.D.helicity p.Bn + 2 * p.dt * p.eta * (T.J p ⬝ᵥ T.D.M12 *ᵥ T.Bmid p)| +
      |2 * p.dt * p.eta * (T.J p ⬝ᵥ T.D.M12 *ᵥ T.Bmid p)| := by
    have := abs_sub (T.D.helicity (T.Bnext p) - T.D.helicity p.Bn + 2 * p.dt * p.eta * (T.J p ⬝ᵥ T.D.M12 *ᵥ T.Bmid p))
      (2 * p.dt * p.eta * (T.J p ⬝ᵥ T.D.M12 *ᵥ T.Bmid p))
    rwa [add_sub_cancel_right] at this
  have k5 := mul_le_mul_of_nonneg_left (add_le_add k1 k2) hdt
  have j0 : 0 ≤ j * X * X := by positivity
  rw [← hres]
  have c0 : 0 ≤ cu * e := by positivity
  have i1 : cu * e * res + b * ibpEps ns ps q + 2 * (j * X * X) * p.eta ≤
      (cu * e + b + 2 * (j * X * X) + 1) * (res + p.eta + ibpEps ns ps q) := by
    nlinarith [mul_nonneg c0 heta, mul_nonneg c0 eps0, mul_nonneg b0 res0, mul_nonneg b0 heta, mul_nonneg j0 res0, mul_nonneg j0 eps0]
  have i2 := mul_le_mul_of_nonneg_left i1 hdt
  calc _ ≤ p.dt * (cu * e * res + b * ibpEps ns ps q + 2 * (j * X * X) * p.eta) := by linarith
    _ ≤ _ := i2
    _ = _ := by ring

omit h hc in
theorem runTime_succ (cfg : RelaxConfig) (env : RelaxEnv T.Field (Matrix (Fin T.D.m2) (Fin T.D.m2) ℝ)) (start : ℝ) (s : T.St)
    (t : Trace T.Field) (k : Nat) :
    ((relaxAfter cfg env start s t k).stopped = false ∧ ¬ rejected cfg (env.step cfg (relaxAfter cfg env start s t k).state) →
      runTime cfg env start s t (k + 1) = runTime cfg env start s t k + (relaxAfter cfg env start s t k).state.dt) ∧
    (¬ ((relaxAfter cfg env start s t k).stopped = false ∧ ¬ rejected cfg (env.step cfg (relaxAfter cfg env start s t k).state)) →
      runTime cfg env start s t (k + 1) = runTime cfg env start s t k) := by
  classical
  constructor
  · intro hk
    unfold runTime
    rw [Finset.range_add_one, Finset.filter_insert, if_pos hk, Finset.sum_insert (by simp), add_comm]
  · intro hk
    unfold runTime
    rw [Finset.range_add_one, Finset.filter_insert, if_neg hk]

omit h hc in
theorem runTime_nonneg (cfg : RelaxConfig) (env : RelaxEnv T.Field (Matrix (Fin T.D.m2) (Fin T.D.m2) ℝ)) (start : ℝ) (s : T.St)
    (t : Trace T.Field) (hdt : 0 < s.dt) (hf : 0 < cfg.dtFactor) (k : Nat) : 0 ≤ runTime cfg env start s t k := by
  unfold runTime
  exact Finset.sum_nonneg fun i _ => (C49_dt_positive cfg env start s t hdt hf i).1.le

/-- **C109** the helicity a run loses or gains is at most a constant times the time it covers, times the Picard tolerance plus the resistivity plus
the decimals of the Gauss tables (`ibpEps`, a multiple of `3e-16`). The constant depends on the discretisation, the options of the stepper and a
bound `R` of the field and the resistivity only: it is the same for all runs, whatever their steps, rejections, clocks and limits. -/
theorem C109_helicity_drift (hX : IsPinv T.D.dd3 T.pinv) (hn : T.newton = false) (R : ℝ) : ∃ C, 0 < C ∧ ∀ (cfg : RelaxConfig) (strength : ℝ)
    (dB : V3 → V3) (clock : Nat → ℝ) (start : ℝ) (s : T.St) (t : Trace T.Field) (k : Nat), 0 ≤ cfg.solverTol → cfg.solverTol < 1 →
    0 < cfg.solverMaxit → 0 < cfg.dtFactor → cfg.NoPerturbation → 0 < s.dt → 0 ≤ s.eta → s.eta ≤ R → T.D.strongDiv *ᵥ s.Bn = 0 →
    T.D.strongDiv *ᵥ s.Bguess = 0 → T.D.norm2 s.Bn + k * cfg.solverTol ≤ R →
    |T.D.helicity (relaxAfter cfg (T.env strength dB clock) start s t k).state.Bn - T.D.helicity s.Bn| ≤
      C * runTime cfg (T.env strength dB clock) start s t k * (cfg.solverTol + s.eta + ibpEps ns ps q) := by
  obtain ⟨C, hC, key⟩ := eval_drift h hc hn (R + 2)
  refine ⟨C, hC, ?_⟩
  intro cfg strength dB clock start s t k ht0 ht1 hmax hf hp hdt heta hetaR hB hG
  induction k with
  | zero =>
    intro _
    show |T.D.helicity s.Bn - T.D.helicity s.Bn| ≤ _
    have : runTime cfg (T.env strength dB clock) start s t 0 = 0 := by simp [runTime]
    rw [this, sub_self, abs_zero, mul_zero, zero_mul]
  | succ k ih =>
    intro hR
    push_cast at hR
    have ih := ih (by linarith)
    have nk := C99_norm_growth cfg strength dB clock start h hX hn ht1 ht0 hmax hf s t hdt heta k
    have nop : ¬ (0 < cfg.pertStrength ∧ 0 < cfg.applyPertAfter ∧ cfg.applyPertAfter ≤ (k : Int)) := by
      rintro ⟨h1, h2, h3⟩
      refine hp cfg.applyPertAfter.toNat (by omega) ⟨by omega, h1⟩
    rw [if_neg nop, add_zero] at nk
    obtain ⟨dk, ek⟩ := C49_dt_positive cfg (T.env strength dB clock) start s t hdt hf k
    have divk := (C45_divergence_free h hX cfg strength dB clock start s t hB hG k).1
    have e1 : relaxAfter cfg (T.env strength dB clock) start s t (k + 1) =
      relaxIteration cfg (T.env strength dB clock) start (k + 1) (relaxAfter cfg (T.env strength dB clock) start s t k) := rfl
    obtain ⟨rt1, rt2⟩ := runTime_succ cfg (T.env strength dB clock) start s t k
    have eps0 := ibpEps_nonneg ns ps q
    by_cases hst : (relaxAfter cfg (T.env strength dB clock) start s t k).stopped = true
    · have e2 : relaxAfter cfg (T.env strength dB clock) start s t (k + 1) = relaxAfter cfg (T.env strength dB clock) start s t k := by
        rw [e1]; unfold relaxIteration; rw [if_pos hst]
      rw [rt2 (by rw [hst]; simp), e2]
      exact ih
    have hst' : (relaxAfter cfg (T.env strength dB clock) start s t k).stopped = false := by simpa using hst
    by_cases hr : rejected cfg ((T.env strength dB clock).step cfg (relaxAfter cfg (T.env strength dB clock) start s t k).state)
    · rw [rt2 (fun hh => hh.2 hr), e1, (C49_rejected_step cfg _ start (k + 1) _ hst' hr).1]
      exact ih
    · rw [rt1 ⟨hst', hr⟩, e1, (C49_accepted_step cfg _ start (k + 1) _ hst' hr (hp (k + 1) (by omega))).1]
      obtain ⟨p, p1, p2, p3, p4, -, -, p5⟩ := accepted_eval cfg strength dB clock h ht1 hmax _ hr
      have na := accepted_norm cfg strength dB clock h hX hn ht1 hmax _ dk.le (by rw [ek]; exact heta) hr
      rw [p4] at na ⊢
      have ng : T.D.norm2 p.Bguess ≤ R + 2 := by
        have e : p.Bguess = T.Bnext p - (T.Bnext p - p.Bguess) := by abel
        rw [e]
        refine (norm2_sub_le h _ _).trans ?_
        linarith
      have kd := key p (by rw [p1]; exact divk) (by rw [p1]; linarith) (by linarith) ng (by rw [p2]; exact dk.le) (by rw [p3, ek]; exact heta)
        (by rw [p3, ek]; linarith)
      rw [p1, p2, p3, ek] at kd
      have kd2 : C * (relaxAfter cfg (T.env strength dB clock) start s t k).state.dt * (T.D.norm2 (T.Bnext p - p.Bguess) + s.eta + ibpEps ns ps q) ≤
          C * (relaxAfter cfg (T.env strength dB clock) start s t k).state.dt * (cfg.solverTol + s.eta + ibpEps ns ps q) :=
        mul_le_mul_of_nonneg_left (by linarith) (by positivity)
      have tri := abs_sub_le (T.D.helicity (T.Bnext p)) (T.D.helicity (relaxAfter cfg (T.env strength dB clock) start s t k).state.Bn)
        (T.D.helicity s.Bn)
      calc _ ≤ _ := tri
        _ ≤ C * (relaxAfter cfg (T.env strength dB clock) start s t k).state.dt * (cfg.solverTol + s.eta + ibpEps ns ps q) +
          C * runTime cfg (T.env strength dB clock) start s t k * (cfg.solverTol + s.eta + ibpEps ns ps q) := add_le_add (kd.trans kd2) ih
        _ = _ := by ring

omit h hc in
theorem runTime_mono (cfg : RelaxConfig) (env : RelaxEnv T.Field (Matrix (Fin T.D.m2) (Fin T.D.m2) ℝ)) (start : ℝ) (s : T.St)
    (t : Trace T.Field) (hdt : 0 < s.dt) (hf : 0 < cfg.dtFactor) {i k : Nat} (hik : i ≤ k) : runTime cfg env start s t i ≤ runTime cfg env start s t k := by
  classical
  unfold runTime
  refine Finset.sum_le_sum_of_subset_of_nonneg (Finset.filter_subset_filter _ (Finset.range_subset_range.2 hik)) fun j _ _ => ?_
  exact (C49_dt_positive cfg env start s t hdt hf j).1.le

/-- **C109** what the trace of a run shows: every helicity it records is a number within this bound of the first one. -/
theorem C109_recorded_helicity (hX : IsPinv T.D.dd3 T.pinv) (hn : T.newton = false) (R : ℝ) : ∃ C, 0 < C ∧ ∀ (cfg : RelaxConfig) (strength : ℝ)
    (dB : V3 → V3) (clock : Nat → ℝ) (start : ℝ) (s : T.St) (k : Nat), 0 ≤ cfg.solverTol → cfg.solverTol < 1 →
    0 < cfg.solverMaxit → 0 < cfg.dtFactor → cfg.NoPerturbation → 0 < s.dt → 0 ≤ s.eta → s.eta ≤ R → T.D.strongDiv *ᵥ s.Bn = 0 →
    T.D.strongDiv *ᵥ s.Bguess = 0 → T.D.norm2 s.Bn + k * cfg.solverTol ≤ R →
    ∀ x ∈ (relaxAfter cfg (T.env strength dB clock) start s (emptyTrace _) k).trace.helicity, ∃ v, x = FV.fin v ∧
      |v - T.D.helicity s.Bn| ≤ C * runTime cfg (T.env strength dB clock) start s (emptyTrace _) k * (cfg.solverTol + s.eta + ibpEps ns ps q) := by
  classical
  obtain ⟨C, hC, key⟩ := C109_helicity_drift h hc hX hn R
  refine ⟨C, hC, ?_⟩
  intro cfg strength dB clock start s k h1 h2 h3 h4 h5 h6 h7 h8 h9 h10 h11 x hx
  have e := (C50_recorded_quantities h cfg strength dB clock start s k).2.1
  have eps0 := ibpEps_nonneg ns ps q
  have w0 : 0 ≤ cfg.solverTol + s.eta + ibpEps ns ps q := by linarith
  rw [e, List.mem_cons, List.mem_map] at hx
  rcases hx with rfl | ⟨i, hi, rfl⟩
  · refine ⟨_, rfl, ?_⟩
    rw [sub_self, abs_zero]
    exact mul_nonneg (mul_nonneg hC.le (runTime_nonneg cfg _ start s _ h6 h4 k)) w0
  · have ik : i ≤ k := by
      unfold savedIterations at hi
      have := (List.mem_filter.1 hi).1
      rw [List.mem_range'_1] at this
      omega
    have kt : (i : ℝ) * cfg.solverTol ≤ k * cfg.solverTol := mul_le_mul_of_nonneg_right (by exact_mod_cast ik) h1
    refine ⟨_, rfl, (key cfg strength dB clock start s (emptyTrace _) i h1 h2 h3 h4 h5 h6 h7 h8 h9 h10 (by linarith)).trans ?_⟩
    exact mul_le_mul_of_nonneg_right (mul_le_mul_of_nonneg_left (runTime_mono cfg _ start s _ h6 h4 ik) hC.le) w0

/-- **C109** the energy cannot fall below what the helicity demands: with two constants of the discretisation, at every iteration of every run without
perturbation `κ energy >= |helicity_0| - C time (tol + eta + decimals)`. So the relaxation of a field with nonzero helicity does not end at zero. -/
theorem C109_energy_floor (hX : IsPinv T.D.dd3 T.pinv) (hn : T.newton = false) (R : ℝ) : ∃ κ C, 0 < κ ∧ 0 < C ∧ ∀ (cfg : RelaxConfig)
    (strength : ℝ) (dB : V3 → V3) (clock : Nat → ℝ) (start : ℝ) (s : T.St) (t : Trace T.Field) (k : Nat), 0 ≤ cfg.solverTol →
    cfg.solverTol < 1 → 0 < cfg.solverMaxit → 0 < cfg.dtFactor → cfg.NoPerturbation → 0 < s.dt → 0 ≤ s.eta → s.eta ≤ R →
    T.D.strongDiv *ᵥ s.Bn = 0 → T.D.strongDiv *ᵥ s.Bguess = 0 → T.D.norm2 s.Bn + k * cfg.solverTol ≤ R →
    |T.D.helicity s.Bn| - C * runTime cfg (T.env strength dB clock) start s t k * (cfg.solverTol + s.eta + ibpEps ns ps q) ≤
      κ * T.D.energy (relaxAfter cfg (T.env strength dB clock) start s t k).state.Bn := by
  obtain ⟨C, hC, key⟩ := C109_helicity_drift h hc hX hn R
  obtain ⟨κ, hκ, hb⟩ := C99_helicity_energy h
  refine ⟨κ, C, hκ, hC, ?_⟩
  intro cfg strength dB clock start s t k h1 h2 h3 h4 h5 h6 h7 h8 h9 h10 h11
  have a := key cfg strength dB clock start s t k h1 h2 h3 h4 h5 h6 h7 h8 h9 h10 h11
  have b := hb (relaxAfter cfg (T.env strength dB clock) start s t k).state.Bn
  have c := abs_sub_abs_le_abs_sub (T.D.helicity s.Bn) (T.D.helicity (relaxAfter cfg (T.env strength dB clock) start s t k).state.Bn)
  rw [abs_sub_comm] at c
  linarith

omit h hc in
/-- The time step grows by at most `dt_factor` per iteration, so `k` iterations cover at most `k dt_0 dt_factor^k`. -/
theorem runTime_le (cfg : RelaxConfig) (strength : ℝ) (dB : V3 → V3) (clock : Nat → ℝ) (start : ℝ) (s : T.St) (t : Trace T.Field)
    (hp : cfg.NoPerturbation) (hf : 1 ≤ cfg.dtFactor) (hdt : 0 < s.dt) (k : Nat) :
    (relaxAfter cfg (T.env strength dB clock) start s t k).state.dt ≤ s.dt * cfg.dtFactor ^ k ∧
    runTime cfg (T.env strength dB clock) start s t k ≤ k * (s.dt * cfg.dtFactor ^ k) := by
  have f0 : 0 < cfg.dtFactor := by linarith
  induction k with
  | zero =>
    refine ⟨?_, ?_⟩
    · rw [pow_zero, mul_one]; exact le_refl _
    · simp [runTime]
  | succ k ih =>
    obtain ⟨ih1, ih2⟩ := ih
    obtain ⟨dk, ek⟩ := C49_dt_positive cfg (T.env strength dB clock) start s t hdt f0 k
    have e1 : relaxAfter cfg (T.env strength dB clock) start s t (k + 1) =
      relaxIteration cfg (T.env strength dB clock) start (k + 1) (relaxAfter cfg (T.env strength dB clock) start s t k) := rfl
    obtain ⟨rt1, rt2⟩ := runTime_succ cfg (T.env strength dB clock) start s t k
    have up : s.dt * cfg.dtFactor ^ k ≤ s.dt * cfg.dtFactor ^ (k + 1) := by
      refine mul_le_mul_of_nonneg_left (pow_le_pow_right₀ hf (by omega)) hdt.le
    have grow : runTime cfg (T.env strength dB clock) start s t (k + 1) ≤ ((k + 1 : Nat) : ℝ) * (s.dt * cfg.dtFactor ^ (k + 1)) := by
      have k0 : (0 : ℝ) ≤ k := by positivity
      have m := mul_le_mul_of_nonneg_left up k0
      have pos : 0 ≤ s.dt * cfg.dtFactor ^ (k + 1) := by positivity
      push_cast
      by_cases hh : (relaxAfter cfg (T.env strength dB clock) start s t k).stopped = false ∧
          ¬ rejected cfg ((T.env strength dB clock).step cfg (relaxAfter cfg (T.env strength dB clock) start s t k).state)
      · rw [rt1 hh]; linarith
      · rw [rt2 hh]; linarith
    refine ⟨?_, grow⟩
    by_cases hst : (relaxAfter cfg (T.env strength dB clock) start s t k).stopped = true
    · have e2 : relaxAfter cfg (T.env strength dB clock) start s t (k + 1) = relaxAfter cfg (T.env strength dB clock) start s t k := by
        rw [e1]; unfold relaxIteration; rw [if_pos hst]
      rw [e2]; linarith
    have hst' : (relaxAfter cfg (T.env strength dB clock) start s t k).stopped = false := by simpa using hst
    by_cases hr : rejected cfg ((T.env strength dB clock).step cfg (relaxAfter cfg (T.env strength dB clock) start s t k).state)
    · rw [e1, (C49_rejected_step cfg _ start (k + 1) _ hst' hr).2.2.1]
      linarith
    · rw [e1, (C49_accepted_step cfg _ start (k + 1) _ hst' hr (hp (k + 1) (by omega))).2.2.2]
      have f2 : 1 ≤ cfg.dtFactor ^ 2 := one_le_pow₀ hf
      split_ifs
      · rw [pow_succ, ← mul_assoc]
        exact mul_le_mul_of_nonneg_right ih1 f0.le
      · have := div_le_self dk.le f2
        linarith

/-- **C109** magnetic relaxation: for every divergence-free initial field, `dt > 0`, `dt_factor >= 1`, resistivity `eta >= 0` and force tolerance `τ > 0`
there are a number `K` of iterations, a tolerance `tol0 > 0` and a constant `C` such that every run whose Picard tolerance is at most `tol0` (iteration
limits as in C99, no perturbation, no Newton steps) stops or reports a force below `τ` within `K` iterations, and up to then the helicity has changed by
at most `C (tol + eta + decimals)`. -/
theorem C109_relaxes_keeping_helicity (hX : IsPinv T.D.dd3 T.pinv) (hn : T.newton = false) (s : T.St) (hg : s.Bguess = s.Bn) (hdt : 0 < s.dt)
    (heta : 0 ≤ s.eta) (hB : T.D.strongDiv *ᵥ s.Bn = 0) (fac : ℝ) (hfac : 1 ≤ fac) (τ : ℝ) (hτ : 0 < τ) :
    ∃ (K : Nat) (tol0 C : ℝ), 0 < tol0 ∧ 0 < C ∧ ∀ (cfg : RelaxConfig) (strength : ℝ) (dB : V3 → V3) (clock : Nat → ℝ) (start : ℝ)
      (t : Trace T.Field) (n : Nat), 0 < cfg.solverTol → cfg.solverTol ≤ tol0 → 1 / 2 ^ n ≤ cfg.solverTol → (n : Int) + 1 ≤ cfg.solverMaxit →
      (n : Int) + 1 < cfg.solverCritit → cfg.dtFactor = fac → cfg.NoPerturbation →
      (∃ k ≤ K, ((relaxAfter cfg (T.env strength dB clock) start s t k).stopped = true ∨
          reportsForceBelow cfg (T.env strength dB clock) start s t τ k) ∧
        (cfg.saveEvery = 1 → cfg.forceTol = τ → (relaxAfter cfg (T.env strength dB clock) start s t k).stopped = true)) ∧
      ∀ k ≤ K, |T.D.helicity (relaxAfter cfg (T.env strength dB clock) start s t k).state.Bn - T.D.helicity s.Bn| ≤
        C * (cfg.solverTol + s.eta + ibpEps ns ps q) := by
  obtain ⟨K, tol0, ht0, key⟩ := C99_force_tolerance_reached h hX hn s hg hdt heta fac hfac τ hτ
  obtain ⟨C, hC, drift⟩ := C109_helicity_drift h hc hX hn (T.D.norm2 s.Bn + K + s.eta)
  have f0 : 0 < fac := by linarith
  refine ⟨K, min tol0 (1 / 2), C * (K * (s.dt * fac ^ K)) + 1, lt_min ht0 (by norm_num), by positivity, ?_⟩
  intro cfg strength dB clock start t n hpos hle hn2 hmax hcrit hfe hp
  refine ⟨key cfg strength dB clock start t n hpos (hle.trans (min_le_left _ _)) hn2 hmax hcrit hfe hp, fun k hk => ?_⟩
  have lt1 : cfg.solverTol < 1 := lt_of_le_of_lt (hle.trans (min_le_right _ _)) (by norm_num)
  have nB := norm2_nonneg T.D s.Bn
  have kK : (k : ℝ) ≤ K := by exact_mod_cast hk
  have k0 : (0 : ℝ) ≤ k := by positivity
  have kt : (k : ℝ) * cfg.solverTol ≤ K := (mul_le_of_le_one_right k0 lt1.le).trans kK
  have d := drift cfg strength dB clock start s t k hpos.le lt1 (by omega) (by rw [hfe]; exact f0) hp hdt heta
    (by have : (0 : ℝ) ≤ K := by positivity
        linarith) hB (by rw [hg]; exact hB) (by linarith)
  refine d.trans ?_
  have rt := (runTime_le cfg strength dB clock start s t hp (by rw [hfe]; exact hfac) hdt k).2
  rw [hfe] at rt
  have rt2 : (k : ℝ) * (s.dt * fac ^ k) ≤ K * (s.dt * fac ^ K) :=
    mul_le_mul kK (mul_le_mul_of_nonneg_left (pow_le_pow_right₀ hfac hk) hdt.le) (by positivity) (by positivity)
  have eps0 := ibpEps_nonneg ns ps q
  have w0 : 0 ≤ cfg.solverTol + s.eta + ibpEps ns ps q := by linarith
  refine mul_le_mul_of_nonneg_right ?_ w0
  have := mul_le_mul_of_nonneg_left (rt.trans rt2) hC.le
  linarith

/-- **C109** with linear splines and two points per element, without resistivity: the helicity of the relaxed field is as close to the initial one as one
likes. For every `τ, δ > 0` all runs with a small enough Picard tolerance reach a force below `τ` (or stop) within `K` iterations, and the helicity
has changed by at most `δ` by then. -/
theorem C109_linear_splines (h1 : ps.1 ≤ 1) (h2 : ps.2.1 ≤ 1) (h3 : ps.2.2 ≤ 1) (hq : q ≤ 2) (hX : IsPinv T.D.dd3 T.pinv)
    (hn : T.newton = false) (s : T.St) (hg : s.Bguess = s.Bn) (hdt : 0 < s.dt) (heta : s.eta = 0) (hB : T.D.strongDiv *ᵥ s.Bn = 0) (fac : ℝ)
    (hfac : 1 ≤ fac) (τ δ : ℝ) (hτ : 0 < τ) (hδ : 0 < δ) :
    ∃ (K : Nat) (tol0 : ℝ), 0 < tol0 ∧ ∀ (cfg : RelaxConfig) (strength : ℝ) (dB : V3 → V3) (clock : Nat → ℝ) (start : ℝ)
      (t : Trace T.Field) (n : Nat), 0 < cfg.solverTol → cfg.solverTol ≤ tol0 → 1 / 2 ^ n ≤ cfg.solverTol → (n : Int) + 1 ≤ cfg.solverMaxit →
      (n : Int) + 1 < cfg.solverCritit → cfg.dtFactor = fac → cfg.NoPerturbation →
      (∃ k ≤ K, ((relaxAfter cfg (T.env strength dB clock) start s t k).stopped = true ∨
          reportsForceBelow cfg (T.env strength dB clock) start s t τ k) ∧
        (cfg.saveEvery = 1 → cfg.forceTol = τ → (relaxAfter cfg (T.env strength dB clock) start s t k).stopped = true)) ∧
      ∀ k ≤ K, |T.D.helicity (relaxAfter cfg (T.env strength dB clock) start s t k).state.Bn - T.D.helicity s.Bn| ≤ δ := by
  obtain ⟨K, tol0, C, ht0, hC, key⟩ := C109_relaxes_keeping_helicity h hc hX hn s hg hdt heta.ge hB fac hfac τ hτ
  refine ⟨K, min tol0 (δ / C), lt_min ht0 (by positivity), ?_⟩
  intro cfg strength dB clock start t n hpos hle hn2 hmax hcrit hfe hp
  obtain ⟨a, b⟩ := key cfg strength dB clock start t n hpos (hle.trans (min_le_left _ _)) hn2 hmax hcrit hfe hp
  refine ⟨a, fun k hk => (b k hk).trans ?_⟩
  rw [heta, ibpEps_linear h1 h2 h3 hq, add_zero, add_zero]
  have := hle.trans (min_le_right _ _)
  rw [le_div_iff₀ hC] at this
  linarith

end

/-- Cases: the standard case, a field that is a curl, any number of iterations. -/
example (g : Nat) (forceFree : Bool) := C109_helicity_drift (Case.T_adm true g false forceFree) (Case.compat true) (Case.T_pinv _ _ _ _) rfl 5
example (g : Nat) (forceFree : Bool) := C109_recorded_helicity (Case.T_adm true g false forceFree) (Case.compat true) (Case.T_pinv _ _ _ _) rfl 5
example (g : Nat) (forceFree : Bool) := C109_energy_floor (Case.T_adm true g false forceFree) (Case.compat true) (Case.T_pinv _ _ _ _) rfl 5

theorem Case.start_div (g : Nat) (forceFree : Bool) :
    (Case.T true g false forceFree).D.strongDiv *ᵥ (Case.start true g forceFree).Bn = 0 := by
  have dc := (C33_exactness (Case.T_adm true g false forceFree)).2.1
  show (Case.T true g false forceFree).D.strongDiv *ᵥ ((Case.T true g false forceFree).D.strongCurl *ᵥ _) = 0
  rw [mulVec_mulVec, dc, zero_mulVec]

example (g : Nat) (forceFree : Bool) (k : Nat) := (C109_helicity_drift (Case.T_adm true g false forceFree) (Case.compat true) (Case.T_pinv _ _ _ _) rfl
    ((Case.T true g false forceFree).D.norm2 (Case.start true g forceFree).Bn + k * Case.cfg.solverTol)).choose_spec.2 Case.cfg 0 (fun _ => 0)
  (fun k => k) 0 (Case.start true g forceFree) (emptyTrace _) k (by norm_num [Case.cfg]) (by norm_num [Case.cfg]) (by norm_num [Case.cfg])
  (by norm_num [Case.cfg]) Case.cfg_noPerturbation (by norm_num [Case.start]) (by norm_num [Case.start]) (by
    have := norm2_nonneg (Case.T true g false forceFree).D (Case.start true g forceFree).Bn
    have e : (Case.start true g forceFree).eta = 0 := rfl
    have : (0 : ℝ) ≤ k * Case.cfg.solverTol := by norm_num [Case.cfg]
    rw [e]
    linarith) (Case.start_div g forceFree) (Case.start_div g forceFree) le_rfl
example (g : Nat) (forceFree : Bool) := C109_relaxes_keeping_helicity (Case.T_adm true g false forceFree) (Case.compat true) (Case.T_pinv _ _ _ _) rfl
  (Case.start true g forceFree) rfl (by norm_num [Case.start]) (by norm_num [Case.start]) (Case.start_div g forceFree) 1.01 (by norm_num) 1e-6 (by norm_num)

/-- A stepper on 6 × 6 × 4 linear splines with two points per element, with the pseudo-inverse of its Laplacian. -/
theorem Case.linear_pinv : ∃ T : Stepper, Admissible (6, 6, 4) (1, 1, 1) 2 ("clamped", "periodic", "periodic") Case.map true true T.D ∧
    IsPinv T.D.dd3 T.pinv ∧ T.newton = false := by
  obtain ⟨T, h⟩ := Case.linear
  exact ⟨⟨T.D, Case.pinv T.D.dd3, fun A b => Case.pinv A *ᵥ b, 1, false, false⟩, h, Case.pinv_spec _, rfl⟩

example (δ : ℝ) (hδ : 0 < δ) : ∃ (T : Stepper) (s : T.St) (K : Nat) (tol0 : ℝ), 0 < tol0 ∧ ∀ k ≤ K, ∀ n : Nat, 1 / 2 ^ n ≤ tol0 →
    |T.D.helicity (relaxAfter ⟨10, tol0, n + 1, n + 2, 1.01, 1e-6, false, 1, 0, 0, 1, false⟩ (T.env 0 (fun y => y) fun _ => 0) 0 s (emptyTrace _) k).state.Bn
      - T.D.helicity s.Bn| ≤ δ := by
  obtain ⟨T, h, hX, hn⟩ := Case.linear_pinv
  let s : T.St := ⟨T.D.strongCurl *ᵥ (fun _ => 1), T.D.strongCurl *ᵥ (fun _ => 1), 1 / 100, 0, 1, 0, .fin 0, .fin 0, .fin 0⟩
  have hB : T.D.strongDiv *ᵥ s.Bn = 0 := by
    have dc := (C33_exactness h).2.1
    show T.D.strongDiv *ᵥ (T.D.strongCurl *ᵥ _) = 0
    rw [mulVec_mulVec, dc, zero_mulVec]
  obtain ⟨K, tol0, h0, key⟩ := C109_linear_splines h (Case.compat true) le_rfl le_rfl le_rfl le_rfl hX hn s rfl (by norm_num [s]) rfl hB 1.01 (by norm_num)
    1e-6 δ (by norm_num) hδ
  exact ⟨T, s, K, tol0, h0, fun k hk n hn => (key ⟨10, tol0, n + 1, n + 2, 1.01, 1e-6, false, 1, 0, 0, 1, false⟩ 0 (fun y => y) (fun _ => 0) 0 (emptyTrace _) n
    h0 le_rfl hn le_rfl (by show (n : Int) + 1 < n + 2; omega) rfl (fun i hi hc => by exact lt_irrefl _ hc.2)).2 k hk⟩

end Mrx.Props
