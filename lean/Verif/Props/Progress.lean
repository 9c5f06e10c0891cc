import Verif.Props.Energy

/-!
# C99: a relaxation makes progress

Rejected steps end, the field cannot grow faster than the tolerance allows, and the force cannot stay large: what a user relies on when a
run is left alone for a long time.
-/

set_option linter.unusedSectionVars false
set_option linter.unusedVariables false

namespace Mrx
open Matrix

/-! ## Specification -/

/-- How fast the field of a state changes, in the norm of 2-forms: `|curl E|` for the electric field `E` of `midpoint_residuum`
(`mrx/relaxation.py:328-347`), evaluated with the field itself as the guess. It does not depend on the time step. -/
noncomputable def Stepper.rate (T : Stepper) (s : T.St) : ℝ := T.D.norm2 (T.D.strongCurl *ᵥ T.E { s with Bguess := s.Bn })

/-- The perturbation is never applied. -/
def RelaxConfig.NoPerturbation (cfg : RelaxConfig) : Prop := ∀ i : Nat, 0 < i → ¬ ((i : Int) = cfg.applyPertAfter ∧ 0 < cfg.pertStrength)

/-- The number inside a finite value (0 for NaN and the infinities). -/
def FV.toReal : FV → ℝ
  | .fin x => x
  | _ => 0

end Mrx

namespace Mrx.Props
open Spec Matrix DeRham

variable {T : Stepper}

/-! ## Small steps are accepted -/

theorem norm2_smul' (D : DeRham) (c : ℝ) (B : Fin D.m2 → ℝ) : D.norm2 (c • B) = |c| * D.norm2 B := by
  unfold DeRham.norm2
  rw [mulVec_smul, dotProduct_smul, smul_dotProduct, smul_eq_mul, smul_eq_mul, ← mul_assoc, Real.sqrt_mul (mul_self_nonneg c),
    Real.sqrt_mul_self_eq_abs]

theorem norm2_nonneg (D : DeRham) (B : Fin D.m2 → ℝ) : 0 ≤ D.norm2 B := Real.sqrt_nonneg _

/-- The first evaluation of the midpoint equations, with the field as the guess, has the residual `|dt| rate`. -/
theorem first_residuum (s : T.St) (hg : s.Bguess = s.Bn) : T.D.norm2 (T.Bnext s - s.Bguess) = |s.dt| * T.rate s := by
  have e : ({ s with Bguess := s.Bn } : T.St) = s := by
    cases s; simp only at hg; subst hg; rfl
  unfold Stepper.rate
  rw [e, hg]
  unfold Stepper.Bnext
  rw [add_sub_cancel_left, norm2_smul']

/-- **C99** a step is accepted as soon as `dt` times the rate of change of the field is at most the tolerance; the Picard solver then needs one
evaluation, and the new field is the explicit step. -/
theorem C99_small_step (tol : ℝ) (maxit : Int) (hm : 0 < maxit) (ht : tol < 1) (s : T.St) (hg : s.Bguess = s.Bn)
    (hs : |s.dt| * T.rate s ≤ tol) :
    let r := step T.update tol maxit s
    r.picardIterations = 1 ∧ r.picardResiduum = .fin (|s.dt| * T.rate s) ∧ r.Bguess = s.Bn + s.dt • (T.D.strongCurl *ᵥ T.E s) := by
  intro r
  obtain ⟨k, hk, hc, hj⟩ := step_iterate T.update tol maxit s
  set s0 : T.St := { s with picardResiduum := .fin 1, picardIterations := 0 } with hs0
  have c0 : stepperCond tol maxit s0 := ⟨hm, Or.inl ht⟩
  have e1 : T.update s0 = T.update s := rfl
  have c1 : ¬ stepperCond tol maxit (midpointResiduum T.update s0) := by
    rintro ⟨-, h2⟩
    have : (midpointResiduum T.update s0).picardResiduum = .fin (|s.dt| * T.rate s) := by
      rw [← first_residuum s hg]; rfl
    rw [this] at h2
    rcases h2 with h2 | h2
    · exact absurd (show tol < |s.dt| * T.rate s from h2) (not_lt.2 hs)
    · exact h2
  have k1 : k = 1 := by
    rcases Nat.lt_trichotomy k 1 with h | h | h
    · obtain rfl : k = 0 := by omega
      rw [hk] at hc
      exact absurd c0 hc
    · exact h
    · exact absurd (hj 1 h) c1
  have hr : r = midpointResiduum T.update s0 := by
    show step T.update tol maxit s = _
    rw [hk, k1]; rfl
  rw [hr]
  refine ⟨rfl, ?_, rfl⟩
  rw [← first_residuum s hg]; rfl

variable (cfg : RelaxConfig) (strength : ℝ) (dB : V3 → V3) (clock : Nat → ℝ) (start : ℝ)

theorem small_not_rejected (hm : 0 < cfg.solverMaxit) (s : T.St) (hg : s.Bguess = s.Bn) (hs : |s.dt| * T.rate s ≤ cfg.solverTol) :
    ¬ rejected cfg ((T.env strength dB clock).step cfg s) := by
  rw [C49_accepted_iff]
  by_cases ht : cfg.solverTol < 1
  · exact ⟨_, (C99_small_step cfg.solverTol cfg.solverMaxit hm ht s hg hs).2.1, hs⟩
  · have h1 := C48_tol_ge_one (upd := T.update) (tol := cfg.solverTol) (maxit := cfg.solverMaxit) (s := s) (not_lt.1 ht)
    have h2 := C48_picard_terminates T.update cfg.solverTol cfg.solverMaxit s
    have e := Returns.unique h1 h2
    refine ⟨1, ?_, not_lt.1 ht⟩
    show (step T.update cfg.solverTol cfg.solverMaxit s).picardResiduum = _
    rw [← e]

/-! ## Rejections end -/

/-- While the steps are rejected the state only changes its guess and halves its time step. -/
theorem rejected_block (s : T.St) (t : Trace T.Field) (k n : Nat)
    (hl : (relaxAfter cfg (T.env strength dB clock) start s t k).stopped = false)
    (hr : ∀ j < n, rejected cfg ((T.env strength dB clock).step cfg (relaxAfter cfg (T.env strength dB clock) start s t (k + j)).state)) :
    let a := relaxAfter cfg (T.env strength dB clock) start s t k
    let b := relaxAfter cfg (T.env strength dB clock) start s t (k + n)
    b.state.Bn = a.state.Bn ∧ (0 < n → b.state.Bguess = a.state.Bn) ∧ b.state.dt = a.state.dt / 2 ^ n ∧ b.state.eta = a.state.eta ∧
      b.state.hessian = a.state.hessian ∧ b.trace = a.trace ∧ b.stopped = false := by
  induction n with
  | zero => exact ⟨rfl, fun h => absurd h (lt_irrefl _), by simp, rfl, rfl, rfl, hl⟩
  | succ n ih =>
    obtain ⟨a1, a2, a3, a4, a5, a6, a7⟩ := ih (fun j hj => hr j (by omega))
    obtain ⟨b1, b2, b3, b4, b5, b6, b7⟩ := C49_rejected_step cfg (T.env strength dB clock) start (k + n + 1) _ a7 (hr n (by omega))
    refine ⟨b1.trans a1, fun _ => b2.trans a1, ?_, b4.trans a4, b5.trans a5, b6.trans a6, b7⟩
    refine b3.trans ?_
    rw [a3, pow_succ, div_div]

/-- **C99** rejections end: from any state a run can reach before it breaks, at most `n` steps in a row are rejected (`n >= 1`), where `n` is
any number with `|dt| rate <= tol 2^n`. The rate is that of the field at which the rejections begin, so the bound is known beforehand. This
holds for every choice of velocity (`gamma`, Newton, force-free), with or without resistivity, perturbations and preconditioner, and for
every guess the state contains. -/
theorem C99_rejections_end (hm : 0 < cfg.solverMaxit) (s : T.St) (t : Trace T.Field) (k n : Nat)
    (hl : (relaxAfter cfg (T.env strength dB clock) start s t k).stopped = false) (hn : 1 ≤ n)
    (hb : |(relaxAfter cfg (T.env strength dB clock) start s t k).state.dt| *
      T.rate (relaxAfter cfg (T.env strength dB clock) start s t k).state ≤ cfg.solverTol * 2 ^ n) :
    ∃ j ≤ n, (relaxAfter cfg (T.env strength dB clock) start s t (k + j)).stopped = false ∧
      ¬ rejected cfg ((T.env strength dB clock).step cfg (relaxAfter cfg (T.env strength dB clock) start s t (k + j)).state) ∧
      ∀ i < j, rejected cfg ((T.env strength dB clock).step cfg (relaxAfter cfg (T.env strength dB clock) start s t (k + i)).state) := by
  classical
  have ex : ∃ j, j ≤ n ∧
      ¬ rejected cfg ((T.env strength dB clock).step cfg (relaxAfter cfg (T.env strength dB clock) start s t (k + j)).state) := by
    by_contra hc
    push Not at hc
    obtain ⟨b1, b2, b3, b4, b5, -, b7⟩ := rejected_block cfg strength dB clock start s t k n hl (fun j hj => hc j hj.le)
    refine small_not_rejected cfg strength dB clock hm _ ?_ ?_ (hc n le_rfl)
    · rw [b2 hn, b1]
    · have er : T.rate (relaxAfter cfg (T.env strength dB clock) start s t (k + n)).state =
          T.rate (relaxAfter cfg (T.env strength dB clock) start s t k).state := by
        unfold Stepper.rate Stepper.E Stepper.u Stepper.u0 Stepper.f Stepper.JxH Stepper.J Stepper.Hh Stepper.Bmid
        simp only [b1, b4, b5]
      rw [b3, er, abs_div, abs_of_pos (by positivity : (0 : ℝ) < 2 ^ n), div_mul_eq_mul_div, div_le_iff₀ (by positivity)]
      exact hb
  refine ⟨Nat.find ex, (Nat.find_spec ex).1, ?_, (Nat.find_spec ex).2, ?_⟩
  · refine (rejected_block cfg strength dB clock start s t k (Nat.find ex) hl ?_).2.2.2.2.2.2
    intro j hj
    by_contra hc
    exact Nat.find_min ex hj ⟨hj.le.trans (Nat.find_spec ex).1, hc⟩
  · intro j hj
    by_contra hc
    exact Nat.find_min ex hj ⟨hj.le.trans (Nat.find_spec ex).1, hc⟩

/-- **C99** a run never gets stuck: with a positive tolerance and at least one Picard iteration, from every point of every history either the
run has stopped or a later step is accepted, after finitely many halvings. -/
theorem C99_never_stuck (hm : 0 < cfg.solverMaxit) (ht : 0 < cfg.solverTol) (s : T.St) (t : Trace T.Field) (k : Nat)
    (hl : (relaxAfter cfg (T.env strength dB clock) start s t k).stopped = false) :
    ∃ k' ≥ k, (relaxAfter cfg (T.env strength dB clock) start s t k').stopped = false ∧
      ¬ rejected cfg ((T.env strength dB clock).step cfg (relaxAfter cfg (T.env strength dB clock) start s t k').state) := by
  obtain ⟨n, hn⟩ := pow_unbounded_of_one_lt (|(relaxAfter cfg (T.env strength dB clock) start s t k).state.dt| *
      T.rate (relaxAfter cfg (T.env strength dB clock) start s t k).state / cfg.solverTol) (by norm_num : (1 : ℝ) < 2)
  rw [div_lt_iff₀ ht] at hn
  obtain ⟨j, -, h1, h2, -⟩ := C99_rejections_end cfg strength dB clock start hm s t k (n + 1) hl (by omega) (by
    rw [pow_succ]
    have : 0 ≤ cfg.solverTol * 2 ^ n := by positivity
    nlinarith)
  exact ⟨k + j, by omega, h1, h2⟩

/-- **C99** the two conditions are needed: with a negative tolerance, or with no Picard iteration and a tolerance below 1, every step of
every run is rejected. -/
theorem C99_stuck (V H : Type) (cfg : RelaxConfig) (env : RelaxEnv V H) (hres : ∀ s x, (env.upd s).residuum = .fin x → 0 ≤ x)
    (hc : cfg.solverTol < 0 ∨ (cfg.solverMaxit ≤ 0 ∧ cfg.solverTol < 1)) (s : State V H) : rejected cfg (env.step cfg s) := by
  by_contra hr
  obtain ⟨x, hx, hx'⟩ := (C49_accepted_iff cfg _).1 hr
  obtain ⟨k, hk, hcond, hj⟩ := step_iterate env.upd cfg.solverTol cfg.solverMaxit s
  have hk' : env.step cfg s = _ := hk
  rw [hk'] at hx
  rcases Nat.eq_zero_or_pos k with h0 | h0
  · subst h0
    injection hx with hx
    rcases hc with hc | hc
    · linarith
    · linarith [hc.2]
  · obtain ⟨m, rfl⟩ : ∃ m, k = m + 1 := ⟨k - 1, by omega⟩
    rcases hc with hc | hc
    · rw [Function.iterate_succ_apply'] at hx
      have := hres _ x hx
      linarith
    · have := (hj 0 (by omega)).1
      exact absurd (show (0 : Int) < cfg.solverMaxit from this) (not_lt.2 hc.1)

/-! ## Norms -/

section
variable {ns ps : Nat × Nat × Nat} {q : Nat} {types : String × String × String} {F : V3 → V3} {polar dirichlet : Bool}
  (h : Admissible ns ps q types F polar dirichlet T.D)
include h

theorem norm2_sq (x : T.Field) : T.D.norm2 x ^ 2 = x ⬝ᵥ T.D.M2 *ᵥ x :=
  Real.sq_sqrt ((C31_mass_matrices_definite h).2.2.1.psd.2 x)

theorem energy_norm (x : T.Field) : T.D.energy x = T.D.norm2 x ^ 2 / 2 := by
  rw [norm2_sq h]; unfold DeRham.energy; norm_num; ring

theorem norm2_triangle (x y : T.Field) : T.D.norm2 (x + y) ≤ T.D.norm2 x + T.D.norm2 y := by
  have m2 := (C31_mass_matrices_definite h).2.2.1
  refine abs_le_of_sq_le_sq' ?_ (add_nonneg (norm2_nonneg _ _) (norm2_nonneg _ _)) |>.2
  have c := (abs_le.1 (cauchy h x y)).2
  have e : T.D.norm2 (x + y) ^ 2 = T.D.norm2 x ^ 2 + 2 * (x ⬝ᵥ T.D.M2 *ᵥ y) + T.D.norm2 y ^ 2 := by
    rw [norm2_sq h, norm2_sq h, norm2_sq h]
    simp only [mulVec_add, dotProduct_add, add_dotProduct]
    rw [sym_dot m2.1 y x]
    ring
  rw [e]
  nlinarith

theorem norm2_sub_le (x y : T.Field) : T.D.norm2 (x - y) ≤ T.D.norm2 x + T.D.norm2 y := by
  have := norm2_triangle h x (-y)
  have e : T.D.norm2 (-y) = T.D.norm2 y := by
    rw [← neg_one_smul ℝ y, norm2_smul']; simp
  rwa [e, ← sub_eq_add_neg] at this

/-- What an accepted step is: one evaluation `p` of the midpoint equations at the same field, time step and resistivity, whose residual is at
most the tolerance and whose norms are reported. -/
theorem accepted_eval (htol : cfg.solverTol < 1) (hmax : 0 < cfg.solverMaxit) (s : T.St)
    (hr : ¬ rejected cfg ((T.env strength dB clock).step cfg s)) :
    ∃ p : T.St, p.Bn = s.Bn ∧ p.dt = s.dt ∧ p.eta = s.eta ∧ ((T.env strength dB clock).step cfg s).Bguess = T.Bnext p ∧
      ((T.env strength dB clock).step cfg s).velocityNorm = .fin (T.D.norm2 (T.u p)) ∧
      ((T.env strength dB clock).step cfg s).forceNorm = .fin (T.D.norm2 (T.f p)) ∧
      T.D.norm2 (T.Bnext p - p.Bguess) ≤ cfg.solverTol := by
  obtain ⟨p, p1, p2, p3, p4, p5, p6, p7, p8⟩ := C48_last
    (C48_picard_terminates (T.env strength dB clock).upd cfg.solverTol cfg.solverMaxit s) htol hmax
  obtain ⟨x, hx, hx'⟩ := (C49_accepted_iff cfg _).1 hr
  have r2 : ((T.env strength dB clock).step cfg s).picardResiduum = .fin (T.D.norm2 (T.Bnext p - p.Bguess)) := p6
  refine ⟨p, p1, p2, p3, p5, p8, p7, ?_⟩
  rw [r2] at hx; injection hx with hx; rw [hx]; exact hx'

/-- The norm of the field found by an accepted step exceeds that of the old field by at most the tolerance. -/
theorem accepted_norm (hX : IsPinv T.D.dd3 T.pinv) (hn : T.newton = false) (htol : cfg.solverTol < 1) (hmax : 0 < cfg.solverMaxit)
    (s : T.St) (hdt : 0 ≤ s.dt) (heta : 0 ≤ s.eta) (hr : ¬ rejected cfg ((T.env strength dB clock).step cfg s)) :
    T.D.norm2 ((T.env strength dB clock).step cfg s).Bguess ≤ T.D.norm2 s.Bn + cfg.solverTol := by
  obtain ⟨p, p1, p2, p3, p5, -, -, p6⟩ := accepted_eval cfg strength dB clock h htol hmax s hr
  have b := C46_energy_bound h hX hn p (by rw [p2]; exact hdt) (by rw [p3]; exact heta)
  rw [p5]
  rw [energy_norm h, energy_norm h, p1] at b
  have t := norm2_sub_le h (T.Bnext p) s.Bn
  have n1 := norm2_nonneg T.D (T.Bnext p)
  have n2 := norm2_nonneg T.D s.Bn
  have n3 := norm2_nonneg T.D (T.Bnext p - p.Bguess)
  have n4 := norm2_nonneg T.D (T.Bnext p - s.Bn)
  generalize T.D.norm2 (T.Bnext p) = a at *
  generalize T.D.norm2 s.Bn = c at *
  generalize T.D.norm2 (T.Bnext p - p.Bguess) = e at *
  generalize T.D.norm2 (T.Bnext p - s.Bn) = g at *
  have k1 : e * g ≤ cfg.solverTol * (a + c) := mul_le_mul p6 t n4 (n3.trans p6)
  by_contra hc
  push Not at hc
  have : cfg.solverTol * (a + c) < (a - c) * (a + c) := mul_lt_mul_of_pos_right (by linarith) (by linarith)
  nlinarith

/-- One iteration enlarges the norm of the field by at most the tolerance, plus the strength of the perturbation if it is applied. -/
theorem iteration_norm (hX : IsPinv T.D.dd3 T.pinv) (hn : T.newton = false) (htol : cfg.solverTol < 1) (ht0 : 0 ≤ cfg.solverTol)
    (hmax : 0 < cfg.solverMaxit) (i : Nat) (l : LoopState T.Field (Matrix (Fin T.D.m2) (Fin T.D.m2) ℝ)) (hdt : 0 ≤ l.state.dt)
    (heta : 0 ≤ l.state.eta) :
    T.D.norm2 (relaxIteration cfg (T.env strength dB clock) start i l).state.Bn ≤ T.D.norm2 l.state.Bn + cfg.solverTol +
      (if (i : Int) = cfg.applyPertAfter ∧ 0 < cfg.pertStrength then |strength| else 0) := by
  have z : 0 ≤ (if (i : Int) = cfg.applyPertAfter ∧ 0 < cfg.pertStrength then |strength| else 0) := by
    split_ifs
    · exact abs_nonneg _
    · exact le_rfl
  by_cases hst : l.stopped = true
  · have e : relaxIteration cfg (T.env strength dB clock) start i l = l := by unfold relaxIteration; rw [if_pos hst]
    rw [e]; linarith
  have hst' : l.stopped = false := by simpa using hst
  by_cases hr : rejected cfg ((T.env strength dB clock).step cfg l.state)
  · rw [(C49_rejected_step cfg _ start i l hst' hr).1]; linarith
  · have a := accepted_norm cfg strength dB clock h hX hn htol hmax l.state hdt heta hr
    by_cases hp : (i : Int) = cfg.applyPertAfter ∧ 0 < cfg.pertStrength
    · have e : (relaxIteration cfg (T.env strength dB clock) start i l).state.Bn =
          T.perturb strength dB ((T.env strength dB clock).step cfg l.state).Bguess := by
        rw [(relaxIteration_accept cfg _ start i l hst' hr).1]
        unfold acceptState
        dsimp only
        simp only [gt_iff_lt, if_pos hp]
        split_ifs <;> rfl
      rw [e, if_pos hp]
      unfold Stepper.perturb
      dsimp only
      refine (norm2_triangle h _ _).trans ?_
      refine add_le_add a ?_
      rw [norm2_smul', norm2_smul']
      refine mul_le_of_le_one_right (abs_nonneg _) ?_
      rw [abs_inv, abs_of_nonneg (norm2_nonneg _ _)]
      exact inv_mul_le_one
    · rw [(C49_accepted_step cfg _ start i l hst' hr hp).1, if_neg hp]
      linarith

/-- **C99** the field cannot run away: after `k` iterations of a run without Newton steps the norm of the field (`sqrt(2 energy)`) exceeds that
of the initial field by at most `k` times the Picard tolerance, plus the strength of the perturbation if it has been applied; for every
regularisation, every resistivity `eta >= 0` and every history of accepted and rejected steps. -/
theorem C99_norm_growth (hX : IsPinv T.D.dd3 T.pinv) (hn : T.newton = false) (htol : cfg.solverTol < 1) (ht0 : 0 ≤ cfg.solverTol)
    (hmax : 0 < cfg.solverMaxit) (hf : 0 < cfg.dtFactor) (s : T.St) (t : Trace T.Field) (hdt : 0 < s.dt) (heta : 0 ≤ s.eta) (k : Nat) :
    T.D.norm2 (relaxAfter cfg (T.env strength dB clock) start s t k).state.Bn ≤ T.D.norm2 s.Bn + k * cfg.solverTol +
      (if 0 < cfg.pertStrength ∧ 0 < cfg.applyPertAfter ∧ cfg.applyPertAfter ≤ k then |strength| else 0) := by
  induction k with
  | zero =>
    rw [if_neg (by push Not; intro _ h1; exact_mod_cast h1)]
    show T.D.norm2 s.Bn ≤ _
    simp
  | succ k ih =>
    obtain ⟨d, e⟩ := C49_dt_positive cfg (T.env strength dB clock) start s t hdt hf k
    have st := iteration_norm cfg strength dB clock start h hX hn htol ht0 hmax (k + 1) _ d.le (by rw [e]; exact heta)
    rw [relaxAfter]
    refine st.trans ?_
    push_cast at *
    have : (if 0 < cfg.pertStrength ∧ 0 < cfg.applyPertAfter ∧ cfg.applyPertAfter ≤ (k : Int) then |strength| else 0) +
        (if (k : Int) + 1 = cfg.applyPertAfter ∧ 0 < cfg.pertStrength then |strength| else 0) =
        (if 0 < cfg.pertStrength ∧ 0 < cfg.applyPertAfter ∧ cfg.applyPertAfter ≤ (k : Int) + 1 then |strength| else 0) := by
      by_cases h1 : 0 < cfg.pertStrength
      · simp only [h1, true_and, and_true]
        by_cases h2 : (k : Int) + 1 = cfg.applyPertAfter
        · rw [if_neg (by omega), if_pos h2, if_pos (by omega), zero_add]
        · rw [if_neg h2, add_zero]
          by_cases h3 : 0 < cfg.applyPertAfter ∧ cfg.applyPertAfter ≤ (k : Int)
          · rw [if_pos h3, if_pos (by omega)]
          · rw [if_neg h3, if_neg (by omega)]
      · simp [h1]
    rw [← this]
    linarith

/-! ## Dissipation -/

/-- One accepted iteration: energy lost and work done. -/
theorem accepted_dissipation (hX : IsPinv T.D.dd3 T.pinv) (hn : T.newton = false) (htol : cfg.solverTol < 1) (hmax : 0 < cfg.solverMaxit)
    (s : T.St) (hdt : 0 ≤ s.dt) (heta : 0 ≤ s.eta) (hr : ¬ rejected cfg ((T.env strength dB clock).step cfg s)) :
    s.dt * ((T.env strength dB clock).step cfg s).velocityNorm.toReal ^ 2 ≤
      T.D.energy s.Bn - T.D.energy ((T.env strength dB clock).step cfg s).Bguess +
      1 / 2 * (cfg.solverTol * T.D.norm2 (((T.env strength dB clock).step cfg s).Bguess - s.Bn)) := by
  obtain ⟨p, p1, p2, p3, p5, p7, -, p6⟩ := accepted_eval cfg strength dB clock h htol hmax s hr
  have m1 := (C31_mass_matrices_definite h).2.1
  have b := C46_energy_balance h p
  have w := work_ge h hX hn p
  have j := m1.psd.2 (T.J p)
  have c := (abs_le.1 (cauchy h (T.Bnext p - p.Bguess) (T.Bnext p - p.Bn))).2
  have c2 := mul_le_mul_of_nonneg_right p6 (norm2_nonneg T.D (T.Bnext p - p.Bn))
  have e : FV.toReal (.fin (T.D.norm2 (T.u p))) = T.D.norm2 (T.u p) := rfl
  rw [p7, p5, e]
  rw [p1, p2, p3] at *
  have k1 := mul_le_mul_of_nonneg_left w hdt
  have k2 : 0 ≤ s.dt * (s.eta * (T.J p ⬝ᵥ T.D.M1 *ᵥ T.J p)) := mul_nonneg hdt (mul_nonneg heta j)
  nlinarith

open Classical in
/-- The work recorded by iteration `i + 1`: `dt |u|^2` with the time step used and the velocity reported, if the step is accepted. -/
noncomputable def workDone (cfg : RelaxConfig) (env : RelaxEnv T.Field (Matrix (Fin T.D.m2) (Fin T.D.m2) ℝ)) (start : ℝ) (s : T.St)
    (t : Trace T.Field) (i : Nat) : ℝ :=
  if (relaxAfter cfg env start s t i).stopped = false ∧ ¬ rejected cfg (env.step cfg (relaxAfter cfg env start s t i).state) then
    (relaxAfter cfg env start s t i).state.dt * (relaxAfter cfg env start s t (i + 1)).state.velocityNorm.toReal ^ 2
  else 0

/-- **C99** the velocities cannot stay large: in a run without Newton steps and without perturbation the sum over the accepted steps of
`dt |u|^2`, with the velocity norms the run reports, is at most the energy lost plus `k tol (|B_0| + k tol)`; in particular it is bounded by the
initial energy and this error. With `gamma = 0` the velocity is the force (`C46`). -/
theorem C99_dissipation (hX : IsPinv T.D.dd3 T.pinv) (hn : T.newton = false) (htol : cfg.solverTol < 1) (ht0 : 0 ≤ cfg.solverTol)
    (hmax : 0 < cfg.solverMaxit) (hf : 0 < cfg.dtFactor) (hp : cfg.NoPerturbation) (s : T.St) (t : Trace T.Field) (hdt : 0 < s.dt)
    (heta : 0 ≤ s.eta) (k : Nat) :
    ∑ i ∈ Finset.range k, workDone cfg (T.env strength dB clock) start s t i ≤
      T.D.energy s.Bn - T.D.energy (relaxAfter cfg (T.env strength dB clock) start s t k).state.Bn +
      k * cfg.solverTol * (T.D.norm2 s.Bn + k * cfg.solverTol) := by
  have grow : ∀ i, T.D.norm2 (relaxAfter cfg (T.env strength dB clock) start s t i).state.Bn ≤ T.D.norm2 s.Bn + i * cfg.solverTol := by
    intro i
    have := C99_norm_growth cfg strength dB clock start h hX hn htol ht0 hmax hf s t hdt heta i
    rwa [if_neg, add_zero] at this
    rintro ⟨a, b, c⟩
    refine hp cfg.applyPertAfter.toNat (by omega) ⟨by omega, a⟩
  have main : ∀ n, n ≤ k → ∑ i ∈ Finset.range n, workDone cfg (T.env strength dB clock) start s t i ≤
      T.D.energy s.Bn - T.D.energy (relaxAfter cfg (T.env strength dB clock) start s t n).state.Bn +
      n * cfg.solverTol * (T.D.norm2 s.Bn + k * cfg.solverTol) := by
    intro n hnk
    induction n with
    | zero =>
      have : (relaxAfter cfg (T.env strength dB clock) start s t 0).state.Bn = s.Bn := rfl
      rw [this]; simp
    | succ n ih =>
      rw [Finset.sum_range_succ]
      have ih' := ih (by omega)
      have g1 := grow n
      have g2 := grow (n + 1)
      have nk : (n : ℝ) + 1 ≤ k := by exact_mod_cast hnk
      have m1 : (n : ℝ) * cfg.solverTol ≤ k * cfg.solverTol := mul_le_mul_of_nonneg_right (by linarith) ht0
      have m2 : ((n + 1 : Nat) : ℝ) * cfg.solverTol ≤ k * cfg.solverTol := by
        push_cast; exact mul_le_mul_of_nonneg_right nk ht0
      have nn := norm2_nonneg T.D s.Bn
      have kt : 0 ≤ (k : ℝ) * cfg.solverTol := by positivity
      have step : workDone cfg (T.env strength dB clock) start s t n ≤
          T.D.energy (relaxAfter cfg (T.env strength dB clock) start s t n).state.Bn -
          T.D.energy (relaxAfter cfg (T.env strength dB clock) start s t (n + 1)).state.Bn +
          cfg.solverTol * (T.D.norm2 s.Bn + k * cfg.solverTol) := by
        obtain ⟨d, e⟩ := C49_dt_positive cfg (T.env strength dB clock) start s t hdt hf n
        have rr : 0 ≤ cfg.solverTol * (T.D.norm2 s.Bn + k * cfg.solverTol) := mul_nonneg ht0 (add_nonneg nn kt)
        have e1 : relaxAfter cfg (T.env strength dB clock) start s t (n + 1) =
          relaxIteration cfg (T.env strength dB clock) start (n + 1) (relaxAfter cfg (T.env strength dB clock) start s t n) := rfl
        unfold workDone
        split_ifs with hc
        · obtain ⟨hs, hr⟩ := hc
          have a := C49_accepted_step cfg (T.env strength dB clock) start (n + 1) _ hs hr (by exact_mod_cast hp (n + 1) (by omega))
          have b := C49_reported_step cfg (T.env strength dB clock) start (n + 1) _ hs
          rw [e1] at g2 ⊢
          rw [b.2.2.2.1, a.1]
          rw [a.1] at g2
          have c := accepted_dissipation cfg strength dB clock h hX hn htol hmax _ d.le (by rw [e]; exact heta) hr
          have tr := norm2_sub_le h ((T.env strength dB clock).step cfg (relaxAfter cfg (T.env strength dB clock) start s t n).state).Bguess
            (relaxAfter cfg (T.env strength dB clock) start s t n).state.Bn
          refine c.trans ?_
          have : cfg.solverTol * T.D.norm2 (((T.env strength dB clock).step cfg
              (relaxAfter cfg (T.env strength dB clock) start s t n).state).Bguess -
              (relaxAfter cfg (T.env strength dB clock) start s t n).state.Bn) ≤
              cfg.solverTol * (2 * (T.D.norm2 s.Bn + k * cfg.solverTol)) :=
            mul_le_mul_of_nonneg_left (by linarith) ht0
          linarith
        · by_cases hst : (relaxAfter cfg (T.env strength dB clock) start s t n).stopped = true
          · have : relaxAfter cfg (T.env strength dB clock) start s t (n + 1) = relaxAfter cfg (T.env strength dB clock) start s t n :=
              C49_stopped cfg (T.env strength dB clock) start s t n 1 hst
            rw [this]; linarith
          · have hst' : (relaxAfter cfg (T.env strength dB clock) start s t n).stopped = false := by simpa using hst
            have hr : rejected cfg ((T.env strength dB clock).step cfg (relaxAfter cfg (T.env strength dB clock) start s t n).state) := by
              by_contra hr; exact hc ⟨hst', hr⟩
            rw [e1, (C49_rejected_step cfg _ start (n + 1) _ hst' hr).1]; linarith
      push_cast at *
      linarith
  exact main k le_rfl

end

end Mrx.Props
