import Verif.Proofs.Case
import Verif.Props.Relaxation
import Verif.Props.Laplace
import Verif.Props.Cross
import Verif.Proofs.Exists
import Verif.Proofs.Pinv

/-!
# C45-C47, C53: conservation properties of the relaxation and the Hessian
-/

set_option linter.unusedSectionVars false
set_option linter.unusedVariables false

namespace Mrx.Props
open Spec Matrix DeRham

/-! ## C45 -/

section
variable {V H : Type} {P : V → Prop}

theorem iterate_inv (upd : State V H → Update V) (hu : ∀ s, P s.Bn → P s.Bguess → P (upd s).B) (k : Nat) (s : State V H) (h1 : P s.Bn)
    (h2 : P s.Bguess) : P ((midpointResiduum upd)^[k] s).Bn ∧ P ((midpointResiduum upd)^[k] s).Bguess := by
  induction k with
  | zero => exact ⟨h1, h2⟩
  | succ k ih =>
    rw [Function.iterate_succ_apply']
    exact ⟨ih.1, hu _ ih.1 ih.2⟩

theorem step_inv (cfg : RelaxConfig) (env : RelaxEnv V H) (hu : ∀ s, P s.Bn → P s.Bguess → P (env.upd s).B) (s : State V H) (h1 : P s.Bn)
    (h2 : P s.Bguess) : P (env.step cfg s).Bn ∧ P (env.step cfg s).Bguess := by
  obtain ⟨k, hk, _⟩ := step_iterate env.upd cfg.solverTol cfg.solverMaxit s
  rw [RelaxEnv.step, hk]
  exact iterate_inv _ hu k _ h1 h2

/-- A property of fields that is kept by the midpoint update and by the perturbation holds for field and guess after any number of
iterations of `run_relaxation_loop`, whatever the history. -/
theorem relax_inv (cfg : RelaxConfig) (env : RelaxEnv V H) (start : ℝ) (hu : ∀ s, P s.Bn → P s.Bguess → P (env.upd s).B)
    (hp : ∀ B, P B → P (env.perturb B)) (s : State V H) (t : Trace V) (h1 : P s.Bn) (h2 : P s.Bguess) (k : Nat) :
    P (relaxAfter cfg env start s t k).state.Bn ∧ P (relaxAfter cfg env start s t k).state.Bguess := by
  induction k with
  | zero => exact ⟨h1, h2⟩
  | succ k ih =>
    rw [relaxAfter]
    generalize relaxAfter cfg env start s t k = l at ih
    obtain ⟨a, b⟩ := step_inv cfg env hu l.state ih.1 ih.2
    unfold relaxIteration
    by_cases hs : l.stopped = true
    · rw [if_pos hs]; exact ih
    · rw [if_neg hs]
      dsimp only
      by_cases hr : rejected cfg (env.step cfg l.state)
      · rw [if_pos hr]; exact ⟨a, a⟩
      · rw [if_neg hr]
        generalize env.step cfg l.state = s' at a b
        dsimp only
        unfold acceptState
        dsimp only
        split_ifs <;> exact ⟨by first | exact hp _ b | exact b, b⟩

end

section
variable {ns ps : Nat × Nat × Nat} {q : Nat} {types : String × String × String} {F : V3 → V3} {polar dirichlet : Bool} {T : Stepper}
  (h : Admissible ns ps q types F polar dirichlet T.D)
include h

/-- **C45** one evaluation of the midpoint equations keeps `div B_n = 0`, for any guess, velocity, step size and resistivity. -/
theorem C45_update (s : T.St) (hB : T.D.strongDiv *ᵥ s.Bn = 0) :
    T.D.strongDiv *ᵥ (T.update s).B = 0 := by
  have dc := (C33_exactness h).2.1
  show T.D.strongDiv *ᵥ (s.Bn + s.dt • (T.D.strongCurl *ᵥ T.E s)) = 0
  rw [mulVec_add, hB, mulVec_smul, mulVec_mulVec, dc, zero_mulVec, smul_zero, add_zero]

/-- **C45** the perturbation of a divergence-free field is divergence-free (for every admissible sequence). -/
theorem C45_perturbation (hX : IsPinv T.D.dd3 T.pinv) (strength : ℝ) (dB : V3 → V3) (B : T.Field) (hB : T.D.strongDiv *ᵥ B = 0) :
    T.D.strongDiv *ᵥ T.perturb strength dB B = 0 := by
  unfold Stepper.perturb
  dsimp only
  rw [mulVec_add, hB, mulVec_smul, mulVec_smul, (C35_leray_projects h _ hX).1, smul_zero, smul_zero, add_zero]

/-- **C45** if the initial field is divergence-free, then so are the field and the guess after any number of
iterations of `run_relaxation_loop`: for every configuration, every history of accepted and rejected steps, any resistivity, Newton
or regularised velocities, with or without perturbation. -/
theorem C45_divergence_free (hX : IsPinv T.D.dd3 T.pinv) (cfg : RelaxConfig) (strength : ℝ)
    (dB : V3 → V3) (clock : Nat → ℝ) (start : ℝ) (s : T.St) (t : Trace T.Field) (hB : T.D.strongDiv *ᵥ s.Bn = 0)
    (hG : T.D.strongDiv *ᵥ s.Bguess = 0) (k : Nat) :
    T.D.strongDiv *ᵥ (relaxAfter cfg (T.env strength dB clock) start s t k).state.Bn = 0 ∧
    T.D.strongDiv *ᵥ (relaxAfter cfg (T.env strength dB clock) start s t k).state.Bguess = 0 :=
  relax_inv (P := fun B => T.D.strongDiv *ᵥ B = 0) cfg (T.env strength dB clock) start (fun s h1 _ => C45_update h s h1)
    (fun B hB => C45_perturbation h hX strength dB B hB) s t hB hG k

/-- **C50** what a run of the solver records: the energy `½ B·M2 B`, the helicity and the `L2` norm of the divergence are those of the field the
run has at that iteration, entry by entry, and the saved fields are these fields. -/
theorem C50_recorded_quantities {T : Stepper} (cfg : RelaxConfig) (strength : ℝ) (dB : V3 → V3) (clock : Nat → ℝ) (start : ℝ) (s : T.St) (k : Nat) :
    let L := savedIterations cfg (T.env strength dB clock) start s (emptyTrace _) k
    let B := fun i => (relaxAfter cfg (T.env strength dB clock) start s (emptyTrace _) i).state.Bn
    let tr := (relaxAfter cfg (T.env strength dB clock) start s (emptyTrace _) k).trace
    tr.energy = FV.fin (s.Bn ⬝ᵥ T.D.M2 *ᵥ s.Bn / 2) :: L.map (fun i => FV.fin (B i ⬝ᵥ T.D.M2 *ᵥ B i / 2)) ∧
    tr.helicity = FV.fin (T.D.helicity s.Bn) :: L.map (fun i => FV.fin (T.D.helicity (B i))) ∧
    tr.divergence = FV.fin (√ ((T.D.strongDiv *ᵥ s.Bn) ⬝ᵥ T.D.M3 *ᵥ (T.D.strongDiv *ᵥ s.Bn))) ::
      L.map (fun i => FV.fin (√ ((T.D.strongDiv *ᵥ B i) ⬝ᵥ T.D.M3 *ᵥ (T.D.strongDiv *ᵥ B i)))) ∧
    (cfg.saveB = true → tr.Bfields = s.Bn :: L.map B) ∧ (cfg.saveB = false → tr.Bfields = []) := by
  obtain ⟨-, -, -, e1, e2, e3, -, -, -, -, e4⟩ := C50_trace cfg (T.env strength dB clock) start s (emptyTrace _) k
  have he : ∀ B : T.Field, FV.fin (B ⬝ᵥ T.D.M2 *ᵥ B / 2) = (T.env strength dB clock).energy B := fun B => by
    show _ = FV.fin (0.5 * (B ⬝ᵥ T.D.M2 *ᵥ B))
    congr 1
    norm_num
    ring
  refine ⟨?_, e2, e3, fun h => ?_, fun h => ?_⟩
  · rw [e1]
    simp only [he]
    rfl
  · rw [e4, if_pos h]; rfl
  · rw [e4, if_neg (by rw [h]; exact Bool.false_ne_true)]; rfl

/-- **C45** every divergence norm recorded in the trace is 0. -/
theorem C45_recorded_divergence (hX : IsPinv T.D.dd3 T.pinv) (cfg : RelaxConfig) (strength : ℝ)
    (dB : V3 → V3) (clock : Nat → ℝ) (start : ℝ) (s : T.St) (hB : T.D.strongDiv *ᵥ s.Bn = 0)
    (hG : T.D.strongDiv *ᵥ s.Bguess = 0) (k : Nat) :
    ∀ x ∈ (relaxAfter cfg (T.env strength dB clock) start s (emptyTrace _) k).trace.divergence, x = .fin 0 := by
  have key : ∀ B, T.D.strongDiv *ᵥ B = 0 → T.D.divergenceNorm B = 0 := fun B hB => by
    unfold DeRham.divergenceNorm; rw [hB]; simp
  have e := (C50_trace cfg (T.env strength dB clock) start s (emptyTrace _) k).2.2.2.2.2.1
  rw [e]
  intro x hx
  simp only [emptyTrace, List.nil_append, List.mem_cons, List.mem_map] at hx
  rcases hx with rfl | ⟨i, _, rfl⟩
  · show FV.fin (T.D.divergenceNorm s.Bn) = _
    rw [key _ hB]
  · show FV.fin (T.D.divergenceNorm _) = _
    rw [key]
    exact (C45_divergence_free h hX cfg strength dB clock start s (emptyTrace _) hB hG i).1

/-! ## C46 -/

theorem cross_112 (v w : Fin T.D.m1 → ℝ) : T.D.crossProductOf .two .one .one v w = .ok (T.D.P1x1to2 v w) := by
  obtain ⟨r, hr, _⟩ := C38_cross_product_integrals h .two .one .one (by simp) v w
  rw [hr]
  unfold DeRham.P1x1to2 DeRham.crossVec
  rw [hr]

theorem cross_211 (u : Fin T.D.m2 → ℝ) (w : Fin T.D.m1 → ℝ) : T.D.crossProductOf .one .two .one u w = .ok (T.D.P2x1to1 u w) := by
  obtain ⟨r, hr, _⟩ := C38_cross_product_integrals h .one .two .one (by simp) u w
  rw [hr]
  unfold DeRham.P2x1to1 DeRham.crossVec
  rw [hr]

/-- `J · (u × H) = - u · (J × H)`. -/
theorem power_balance (u : Fin T.D.m2 → ℝ) (J Hh : Fin T.D.m1 → ℝ) :
    J ⬝ᵥ T.D.P2x1to1 u Hh = -(u ⬝ᵥ T.D.P1x1to2 J Hh) := by
  obtain ⟨r, hr, _⟩ := C38_cross_product_integrals h .two .one .one (by simp) Hh J
  have e1 := C38_cyclic h .one .two .one J u Hh _ _ (cross_211 h u Hh) hr
  have e2 := C38_antisymmetric h .two .one .one J Hh _ _ (cross_112 h J Hh) hr
  have e3 : r = -(T.D.P1x1to2 J Hh) := e2
  have e4 : J ⬝ᵥ T.D.P2x1to1 u Hh = u ⬝ᵥ r := e1
  rw [e4, e3, dotProduct_neg]

/-- `curl E` tested with the field at the midpoint. -/
theorem energy_rate (s : T.St) :
    T.Bmid s ⬝ᵥ T.D.M2 *ᵥ (T.D.strongCurl *ᵥ T.E s) =
      -(T.u s ⬝ᵥ T.D.M2 *ᵥ T.JxH s + s.eta * (T.J s ⬝ᵥ T.D.M1 *ᵥ T.J s)) := by
  obtain ⟨m0, m1, m2, m3⟩ := C31_mass_matrices_definite h
  have adj := (C32_adjoint_operators h.built m0.det m1.det m2.det m3.det).2.1 (T.E s) (T.Bmid s)
  rw [sym_dot m2.1, adj, sym_dot m1.1]
  show T.J s ⬝ᵥ T.D.M1 *ᵥ (T.D.M1⁻¹ *ᵥ T.D.P2x1to1 (T.u s) (T.Hh s) - s.eta • T.J s) = _
  rw [mulVec_sub, mulVec_mulVec, m1.mul_inv, one_mulVec, dotProduct_sub, power_balance h, mulVec_smul, dotProduct_smul, smul_eq_mul]
  have : T.D.M2 *ᵥ T.JxH s = T.D.P1x1to2 (T.J s) (T.Hh s) := by
    unfold Stepper.JxH
    rw [mulVec_mulVec, m2.mul_inv, one_mulVec]
  rw [this]
  ring

/-- **C46** the exact energy balance of one evaluation of the midpoint equations, at any guess: the change of the magnetic energy is
`- dt (u · (J × H) + eta |J|^2)` plus half the product of the residual with the increment. -/
theorem C46_energy_balance (s : T.St) :
    T.D.energy (T.Bnext s) - T.D.energy s.Bn =
      -s.dt * (T.u s ⬝ᵥ T.D.M2 *ᵥ T.JxH s + s.eta * (T.J s ⬝ᵥ T.D.M1 *ᵥ T.J s))
      + 1 / 2 * ((T.Bnext s - s.Bguess) ⬝ᵥ T.D.M2 *ᵥ (T.Bnext s - s.Bn)) := by
  obtain ⟨m0, m1, m2, m3⟩ := C31_mass_matrices_definite h
  have e := energy_rate h s
  have hd : T.Bnext s - s.Bn = s.dt • (T.D.strongCurl *ᵥ T.E s) := by
    unfold Stepper.Bnext; rw [add_sub_cancel_left]
  have e2 : T.Bmid s ⬝ᵥ T.D.M2 *ᵥ (T.Bnext s - s.Bn) =
      -s.dt * (T.u s ⬝ᵥ T.D.M2 *ᵥ T.JxH s + s.eta * (T.J s ⬝ᵥ T.D.M1 *ᵥ T.J s)) := by
    rw [hd, mulVec_smul, dotProduct_smul, e, smul_eq_mul]; ring
  rw [← e2]
  unfold DeRham.energy Stepper.Bmid
  generalize T.Bnext s = B'
  simp only [mulVec_sub, dotProduct_sub, sub_dotProduct, smul_dotProduct, add_dotProduct, smul_eq_mul]
  have := sym_dot m2.1 B' s.Bn
  have := sym_dot m2.1 B' s.Bguess
  have := sym_dot m2.1 s.Bguess s.Bn
  norm_num
  linarith

/-- The velocity of a step without regularisation and without Newton is the (projected) force, and it does the work `|u|^2`. -/
theorem work_gamma_zero (hX : IsPinv T.D.dd3 T.pinv) (hg : T.gamma = 0) (hn : T.newton = false) (s : T.St) :
    T.u s ⬝ᵥ T.D.M2 *ᵥ T.JxH s = T.D.norm2 (T.u s) ^ 2 := by
  obtain ⟨m0, m1, m2, m3⟩ := C31_mass_matrices_definite h
  have hu : T.u s = T.f s := by simp [Stepper.u, Stepper.u0, hg, hn]
  have hw : T.f s ⬝ᵥ T.D.M2 *ᵥ T.JxH s = T.f s ⬝ᵥ T.D.M2 *ᵥ T.f s := by
    unfold Stepper.f
    split_ifs
    · rfl
    · obtain ⟨_, idem, _, sa⟩ := C35_leray_projects h _ hX
      rw [← sa (T.D.leray T.pinv *ᵥ T.JxH s), mulVec_mulVec, idem]
  rw [hu, hw, DeRham.norm2, Real.sq_sqrt (m2.psd.2 _)]

/-- **C46** a step that solves the midpoint equations exactly (the guess is reproduced) without regularisation and Newton changes the
energy by exactly `- dt (|u|^2 + eta |J|^2)`. -/
theorem C46_energy_dissipation (hX : IsPinv T.D.dd3 T.pinv) (hg : T.gamma = 0) (hn : T.newton = false) (s : T.St)
    (hs : T.Bnext s = s.Bguess) :
    T.D.energy (T.Bnext s) - T.D.energy s.Bn = -s.dt * (T.D.norm2 (T.u s) ^ 2 + s.eta * (T.J s ⬝ᵥ T.D.M1 *ᵥ T.J s)) := by
  rw [C46_energy_balance h, work_gamma_zero h hX hg hn, hs, sub_self, zero_dotProduct, mul_zero, add_zero]

/-- Cauchy-Schwarz for the M2 product. -/
theorem cauchy (x y : Fin T.D.m2 → ℝ) : |x ⬝ᵥ T.D.M2 *ᵥ y| ≤ T.D.norm2 x * T.D.norm2 y := by
  obtain ⟨m0, m1, m2, m3⟩ := C31_mass_matrices_definite h
  have key : (x ⬝ᵥ T.D.M2 *ᵥ y) ^ 2 ≤ (x ⬝ᵥ T.D.M2 *ᵥ x) * (y ⬝ᵥ T.D.M2 *ᵥ y) := by
    have hq : ∀ r : ℝ, 0 ≤ (y ⬝ᵥ T.D.M2 *ᵥ y) * (r * r) + (2 * (x ⬝ᵥ T.D.M2 *ᵥ y)) * r + x ⬝ᵥ T.D.M2 *ᵥ x := by
      intro r
      have := m2.psd.2 (x + r • y)
      simp only [mulVec_add, mulVec_smul, dotProduct_add, add_dotProduct, smul_dotProduct, dotProduct_smul, smul_eq_mul] at this
      rw [sym_dot m2.1 y x] at this
      linarith
    have := discrim_le_zero hq
    unfold discrim at this
    nlinarith
  unfold DeRham.norm2
  rw [← Real.sqrt_mul (m2.psd.2 x)]
  exact Real.abs_le_sqrt key

/-- **C46** an inexact step misses the exact dissipation by at most half the residual times the size of the increment. -/
theorem C46_energy_inexact (hX : IsPinv T.D.dd3 T.pinv) (hg : T.gamma = 0) (hn : T.newton = false) (s : T.St) :
    |T.D.energy (T.Bnext s) - T.D.energy s.Bn + s.dt * (T.D.norm2 (T.u s) ^ 2 + s.eta * (T.J s ⬝ᵥ T.D.M1 *ᵥ T.J s))| ≤
      1 / 2 * (T.D.norm2 (T.Bnext s - s.Bguess) * T.D.norm2 (T.Bnext s - s.Bn)) := by
  rw [C46_energy_balance h, work_gamma_zero h hX hg hn]
  have := cauchy h (T.Bnext s - s.Bguess) (T.Bnext s - s.Bn)
  have e : ∀ a b : ℝ, -s.dt * a + b + s.dt * a = b := fun a b => by ring
  rw [e, abs_mul, abs_of_pos (by norm_num : (0 : ℝ) < 1 / 2)]
  linarith

/-! ### Regularised velocities -/

/-- `M2 (1 + dd2)` is symmetric positive definite. -/
theorem helmholtz_spd : SPD (T.D.M2 * (1 + T.D.dd2)) := by
  obtain ⟨m0, m1, m2, m3⟩ := C31_mass_matrices_definite h
  obtain ⟨s0, s1, s2, s3⟩ := C34_laplacians_semidefinite h
  rw [Matrix.mul_add, Matrix.mul_one]
  refine ⟨(m2.psd.add s2).1, fun x hx => ?_⟩
  rw [add_mulVec, dotProduct_add]
  have := m2.2 x hx
  have := s2.2 x
  linarith

theorem helmholtz_unit : IsUnit (1 + T.D.dd2).det := by
  have := (helmholtz_spd h).det
  rw [det_mul] at this
  exact isUnit_of_mul_isUnit_right this

/-- The regularisation is self-adjoint and positive in the M2 product. -/
theorem reg_sa (x y : Fin T.D.m2 → ℝ) : x ⬝ᵥ T.D.M2 *ᵥ ((1 + T.D.dd2)⁻¹ *ᵥ y) = ((1 + T.D.dd2)⁻¹ *ᵥ x) ⬝ᵥ T.D.M2 *ᵥ y := by
  have hN := helmholtz_spd h
  have hu := helmholtz_unit h
  set A := 1 + T.D.dd2 with hA
  have e : ∀ z, A *ᵥ (A⁻¹ *ᵥ z) = z := fun z => by rw [mulVec_mulVec, mul_nonsing_inv _ hu, one_mulVec]
  obtain ⟨m0, m1, m2, m3⟩ := C31_mass_matrices_definite h
  have a1 : x ⬝ᵥ T.D.M2 *ᵥ (A⁻¹ *ᵥ y) = (A⁻¹ *ᵥ y) ⬝ᵥ (T.D.M2 * A) *ᵥ (A⁻¹ *ᵥ x) := by
    rw [← mulVec_mulVec, e, sym_dot m2.1]
  have a2 : (A⁻¹ *ᵥ x) ⬝ᵥ T.D.M2 *ᵥ y = (A⁻¹ *ᵥ x) ⬝ᵥ (T.D.M2 * A) *ᵥ (A⁻¹ *ᵥ y) := by
    rw [← mulVec_mulVec, e]
  rw [a1, a2, sym_dot hN.1]

theorem reg_nonneg (x : Fin T.D.m2 → ℝ) : 0 ≤ x ⬝ᵥ T.D.M2 *ᵥ ((1 + T.D.dd2)⁻¹ *ᵥ x) := by
  have hN := helmholtz_spd h
  have hu := helmholtz_unit h
  rw [reg_sa h]
  have e : T.D.M2 *ᵥ x = (T.D.M2 * (1 + T.D.dd2)) *ᵥ ((1 + T.D.dd2)⁻¹ *ᵥ x) := by
    rw [← mulVec_mulVec, mulVec_mulVec _ (1 + T.D.dd2), mul_nonsing_inv _ hu, one_mulVec]
  rw [e]
  exact hN.psd.2 _

theorem reg_iter_sa (k : Nat) (x y : Fin T.D.m2 → ℝ) :
    x ⬝ᵥ T.D.M2 *ᵥ ((fun v => (1 + T.D.dd2)⁻¹ *ᵥ v)^[k] y) = ((fun v => (1 + T.D.dd2)⁻¹ *ᵥ v)^[k] x) ⬝ᵥ T.D.M2 *ᵥ y := by
  induction k generalizing x y with
  | zero => rfl
  | succ k ih => rw [Function.iterate_succ_apply, ih, Function.iterate_succ_apply', reg_sa h]

theorem reg_iter_nonneg (k : Nat) (x : Fin T.D.m2 → ℝ) : 0 ≤ x ⬝ᵥ T.D.M2 *ᵥ ((fun v => (1 + T.D.dd2)⁻¹ *ᵥ v)^[k] x) := by
  obtain ⟨m0, m1, m2, m3⟩ := C31_mass_matrices_definite h
  rcases Nat.even_or_odd' k with ⟨j, rfl | rfl⟩
  · rw [two_mul, Function.iterate_add_apply, reg_iter_sa h]
    exact m2.psd.2 _
  · rw [show 2 * j + 1 = j + (1 + j) by ring, Function.iterate_add_apply, reg_iter_sa h, Function.iterate_add_apply]
    exact reg_nonneg h _

/-- The work done by the velocity against `J × H` is that against the force. -/
theorem work_force (hX : IsPinv T.D.dd3 T.pinv) (hn : T.newton = false) (s : T.St) :
    T.u s ⬝ᵥ T.D.M2 *ᵥ T.JxH s = T.u s ⬝ᵥ T.D.M2 *ᵥ T.f s := by
  obtain ⟨m0, m1, m2, m3⟩ := C31_mass_matrices_definite h
  have hu : T.u s = (fun v => (1 + T.D.dd2)⁻¹ *ᵥ v)^[T.gamma] (T.f s) := by simp [Stepper.u, Stepper.u0, hn]
  by_cases hff : T.forceFree = true
  · have hf : T.f s = T.JxH s := by simp [Stepper.f, hff]
    rw [hf]
  · have hf : T.f s = T.D.leray T.pinv *ᵥ T.JxH s := by simp [Stepper.f, hff]
    · obtain ⟨pd, idem, fx, sa⟩ := C35_leray_projects h _ hX
      -- the regularisation keeps divergence-free fields
      have keep1 : ∀ v, T.D.strongDiv *ᵥ v = 0 → T.D.strongDiv *ᵥ ((1 + T.D.dd2)⁻¹ *ᵥ v) = 0 := by
        intro v hv
        have com := (C34_laplacians_commute h).2.2
        obtain ⟨y, hy⟩ : ∃ y, y = (1 + T.D.dd2)⁻¹ *ᵥ v := ⟨_, rfl⟩
        rw [← hy]
        have hAy : (1 + T.D.dd2) *ᵥ y = v := by
          rw [hy, mulVec_mulVec, mul_nonsing_inv _ (helmholtz_unit h), one_mulVec]
        have e : T.D.strongDiv *ᵥ y + T.D.dd3 *ᵥ (T.D.strongDiv *ᵥ y) = 0 := by
          rw [mulVec_mulVec _ T.D.dd3, com, ← mulVec_mulVec, ← mulVec_add, ← hv, ← hAy, add_mulVec, one_mulVec]
        have s3 := (C34_laplacians_semidefinite h).2.2.2
        apply m3.eq_zero
        have q := s3.2 (T.D.strongDiv *ᵥ y)
        rw [← mulVec_mulVec] at q
        have r : (T.D.strongDiv *ᵥ y) ⬝ᵥ T.D.M3 *ᵥ (T.D.strongDiv *ᵥ y + T.D.dd3 *ᵥ (T.D.strongDiv *ᵥ y)) = 0 := by
          rw [e, mulVec_zero, dotProduct_zero]
        rw [mulVec_add, dotProduct_add] at r
        have := m3.psd.2 (T.D.strongDiv *ᵥ y)
        linarith
      have keep : ∀ k v, T.D.strongDiv *ᵥ v = 0 → T.D.strongDiv *ᵥ ((fun v => (1 + T.D.dd2)⁻¹ *ᵥ v)^[k] v) = 0 := by
        intro k v hv
        induction k with
        | zero => exact hv
        | succ k ih => rw [Function.iterate_succ_apply']; exact keep1 _ ih
      have hdiv : T.D.strongDiv *ᵥ T.u s = 0 := by rw [hu, hf]; exact keep _ _ (pd _)
      have e : T.u s ⬝ᵥ T.D.M2 *ᵥ T.JxH s = T.u s ⬝ᵥ T.D.M2 *ᵥ T.f s := by
        rw [hf, ← sa, fx _ hdiv]
      exact e

/-- The velocity never works against the force. -/
theorem work_nonneg (hX : IsPinv T.D.dd3 T.pinv) (hn : T.newton = false) (s : T.St) : 0 ≤ T.u s ⬝ᵥ T.D.M2 *ᵥ T.JxH s := by
  have hu : T.u s = (fun v => (1 + T.D.dd2)⁻¹ *ᵥ v)^[T.gamma] (T.f s) := by simp [Stepper.u, Stepper.u0, hn]
  rw [work_force h hX hn, hu, sym_dot (C31_mass_matrices_definite h).2.2.1.1]
  exact reg_iter_nonneg h _ _

/-- The regularisation does not enlarge a field, and the product with the regularised field is at least its square. -/
theorem reg_le (x : Fin T.D.m2 → ℝ) :
    ((1 + T.D.dd2)⁻¹ *ᵥ x) ⬝ᵥ T.D.M2 *ᵥ ((1 + T.D.dd2)⁻¹ *ᵥ x) ≤ ((1 + T.D.dd2)⁻¹ *ᵥ x) ⬝ᵥ T.D.M2 *ᵥ x ∧
    ((1 + T.D.dd2)⁻¹ *ᵥ x) ⬝ᵥ T.D.M2 *ᵥ ((1 + T.D.dd2)⁻¹ *ᵥ x) ≤ x ⬝ᵥ T.D.M2 *ᵥ x := by
  obtain ⟨m0, m1, m2, m3⟩ := C31_mass_matrices_definite h
  obtain ⟨s0, s1, s2, s3⟩ := C34_laplacians_semidefinite h
  obtain ⟨y, hy⟩ : ∃ y, y = (1 + T.D.dd2)⁻¹ *ᵥ x := ⟨_, rfl⟩
  have hx : x = y + T.D.dd2 *ᵥ y := by
    have : (1 + T.D.dd2) *ᵥ y = x := by rw [hy, mulVec_mulVec, mul_nonsing_inv _ (helmholtz_unit h), one_mulVec]
    rw [← this, add_mulVec, one_mulVec]
  have q := s2.2 y
  rw [← mulVec_mulVec] at q
  have q2 := m2.psd.2 (T.D.dd2 *ᵥ y)
  rw [← hy, hx]
  simp only [mulVec_add, dotProduct_add, add_dotProduct]
  rw [sym_dot m2.1 (T.D.dd2 *ᵥ y) y]
  constructor <;> linarith

theorem reg_iter_le (k : Nat) (x : Fin T.D.m2 → ℝ) :
    ((fun v => (1 + T.D.dd2)⁻¹ *ᵥ v)^[k] x) ⬝ᵥ T.D.M2 *ᵥ ((fun v => (1 + T.D.dd2)⁻¹ *ᵥ v)^[k] x) ≤
      x ⬝ᵥ T.D.M2 *ᵥ ((fun v => (1 + T.D.dd2)⁻¹ *ᵥ v)^[k] x) := by
  have hc : ∀ j y, ((fun v => (1 + T.D.dd2)⁻¹ *ᵥ v)^[j] y) ⬝ᵥ T.D.M2 *ᵥ ((fun v => (1 + T.D.dd2)⁻¹ *ᵥ v)^[j] y) ≤ y ⬝ᵥ T.D.M2 *ᵥ y := by
    intro j y
    induction j with
    | zero => exact le_rfl
    | succ j ih => rw [Function.iterate_succ_apply']; exact (reg_le h _).2.trans ih
  rcases Nat.even_or_odd' k with ⟨j, rfl | rfl⟩
  · rw [two_mul, Function.iterate_add_apply, reg_iter_sa h j x]
    exact hc _ _
  · rw [show 2 * j + 1 = j + (1 + j) by ring, Function.iterate_add_apply, reg_iter_sa h j x, Function.iterate_add_apply]
    refine (hc _ _).trans ?_
    have := (reg_le h ((fun v => (1 + T.D.dd2)⁻¹ *ᵥ v)^[j] x)).1
    exact this.trans (reg_sa h _ _).ge

/-- The work done by the velocity is at least its square. -/
theorem work_ge (hX : IsPinv T.D.dd3 T.pinv) (hn : T.newton = false) (s : T.St) :
    T.D.norm2 (T.u s) ^ 2 ≤ T.u s ⬝ᵥ T.D.M2 *ᵥ T.JxH s := by
  have m2 := (C31_mass_matrices_definite h).2.2.1
  have hu : T.u s = (fun v => (1 + T.D.dd2)⁻¹ *ᵥ v)^[T.gamma] (T.f s) := by simp [Stepper.u, Stepper.u0, hn]
  rw [work_force h hX hn, DeRham.norm2, Real.sq_sqrt (m2.psd.2 _), hu, sym_dot m2.1 _ (T.f s)]
  exact reg_iter_le h _ _


/-- **C46** (`newton=False`) one evaluation of the midpoint equations at any guess, with
any regularisation `gamma`, `dt >= 0` and `eta >= 0`, increases the energy by at most half the residual times the size of the
increment. -/
theorem C46_energy_bound (hX : IsPinv T.D.dd3 T.pinv) (hn : T.newton = false) (s : T.St) (hdt : 0 ≤ s.dt) (heta : 0 ≤ s.eta) :
    T.D.energy (T.Bnext s) ≤ T.D.energy s.Bn + 1 / 2 * (T.D.norm2 (T.Bnext s - s.Bguess) * T.D.norm2 (T.Bnext s - s.Bn)) := by
  obtain ⟨m0, m1, m2, m3⟩ := C31_mass_matrices_definite h
  have hbal := C46_energy_balance h s
  have hJ := m1.psd.2 (T.J s)
  have := mul_nonneg hdt (add_nonneg (work_nonneg h hX hn s) (mul_nonneg heta hJ))
  have := le_trans (le_abs_self _) (cauchy h (T.Bnext s - s.Bguess) (T.Bnext s - s.Bn))
  linarith

/-- **C46** (`newton=False`) a step that solves the midpoint equations exactly, with any
regularisation `gamma`, `dt >= 0` and `eta >= 0` does not increase the energy. -/
theorem C46_energy_decreases (hX : IsPinv T.D.dd3 T.pinv) (hn : T.newton = false) (s : T.St) (hdt : 0 ≤ s.dt) (heta : 0 ≤ s.eta)
    (hs : T.Bnext s = s.Bguess) : T.D.energy (T.Bnext s) ≤ T.D.energy s.Bn := by
  have := C46_energy_bound h hX hn s hdt heta
  have e : T.D.norm2 (T.Bnext s - s.Bguess) = 0 := by rw [hs, sub_self]; simp [DeRham.norm2]
  rw [e, zero_mul, mul_zero, add_zero] at this
  exact this

/-- **C46** (`newton=True`) a Newton step works with the force, not against it, if the Hessian is symmetric positive semidefinite, there is
no regularisation and `jnp.linalg.lstsq` returns the least-squares solution of minimal norm. -/
theorem newton_work_nonneg (hX : IsPinv T.D.dd3 T.pinv) (hn : T.newton = true) (hg : T.gamma = 0) (s : T.St) (hH : SPSD s.hessian)
    (hls : ∀ b, ∃ Y, IsPinv s.hessian Y ∧ T.lstsq s.hessian b = Y *ᵥ b) : 0 ≤ T.u s ⬝ᵥ T.D.M2 *ᵥ T.JxH s := by
  obtain ⟨m0, m1, m2, m3⟩ := C31_mass_matrices_definite h
  obtain ⟨pd, idem, fx, sa⟩ := C35_leray_projects h _ hX
  have pt : ∀ a w, a ⬝ᵥ (T.D.leray T.pinv)ᵀ *ᵥ w = (T.D.leray T.pinv *ᵥ a) ⬝ᵥ w := fun a w => by
    rw [transpose_dot, transpose_transpose]
  obtain ⟨b, hb⟩ : ∃ b, b = (T.D.leray T.pinv)ᵀ *ᵥ (T.D.M2 *ᵥ T.JxH s) := ⟨_, rfl⟩
  have e0 : (T.D.leray T.pinv)ᵀ *ᵥ (T.D.M2 *ᵥ T.u0 s) = b := by
    have : T.u0 s = T.f s := by simp [Stepper.u0, hg]
    rw [this, hb]
    unfold Stepper.f
    split_ifs with hf
    · rfl
    · refine dot_ext fun a => ?_
      rw [pt, pt, ← sa, mulVec_mulVec, idem]
  obtain ⟨Y, hY, hYb⟩ := hls b
  have hYs : Yᵀ = Y := pinv_unique (A := s.hessian) ⟨by
      have := congrArg transpose hY.axa
      simpa only [transpose_mul, hH.1, Matrix.mul_assoc] using this, by
      have := congrArg transpose hY.xax
      simpa only [transpose_mul, hH.1, Matrix.mul_assoc] using this, by
      have := hY.xa
      rw [transpose_mul, hH.1] at this
      rw [this, ← this, transpose_mul, transpose_transpose, hH.1, ← this], by
      have := hY.ax
      rw [transpose_mul, hH.1] at this
      rw [this, ← this, transpose_mul, transpose_transpose, hH.1, ← this]⟩ hY
  have eu : T.u s = T.D.leray T.pinv *ᵥ (Y *ᵥ b) := by simp only [Stepper.u, hn, if_true, e0, hYb]
  have w : T.u s ⬝ᵥ T.D.M2 *ᵥ T.JxH s = (Y *ᵥ b) ⬝ᵥ s.hessian *ᵥ (Y *ᵥ b) := by
    have a1 : T.u s ⬝ᵥ T.D.M2 *ᵥ T.JxH s = (Y *ᵥ b) ⬝ᵥ b := by
      rw [eu, ← pt, ← hb]
    have a2 : (Y *ᵥ b) ⬝ᵥ s.hessian *ᵥ (Y *ᵥ b) = b ⬝ᵥ (Y * s.hessian * Y) *ᵥ b := by
      rw [← mulVec_mulVec, ← mulVec_mulVec, transpose_dot Y, hYs]
    rw [a1, a2, hY.xax, dotProduct_comm]
  rw [w]
  exact hH.2 _

/-- **C46** (`newton=True`, `gamma = 0`, Hessian positive semidefinite) a Newton step that solves the midpoint equations exactly does not
increase the energy; an inexact one by at most half the residual times the increment. -/
theorem C46_newton_energy (hX : IsPinv T.D.dd3 T.pinv) (hn : T.newton = true) (hg : T.gamma = 0) (s : T.St) (hH : SPSD s.hessian)
    (hls : ∀ b, ∃ Y, IsPinv s.hessian Y ∧ T.lstsq s.hessian b = Y *ᵥ b) (hdt : 0 ≤ s.dt) (heta : 0 ≤ s.eta) :
    T.D.energy (T.Bnext s) ≤ T.D.energy s.Bn + 1 / 2 * (T.D.norm2 (T.Bnext s - s.Bguess) * T.D.norm2 (T.Bnext s - s.Bn)) ∧
    (T.Bnext s = s.Bguess → T.D.energy (T.Bnext s) ≤ T.D.energy s.Bn) := by
  obtain ⟨m0, m1, m2, m3⟩ := C31_mass_matrices_definite h
  have hbal := C46_energy_balance h s
  have hJ := m1.psd.2 (T.J s)
  have := mul_nonneg hdt (add_nonneg (newton_work_nonneg h hX hn hg s hH hls) (mul_nonneg heta hJ))
  have := le_trans (le_abs_self _) (cauchy h (T.Bnext s - s.Bguess) (T.Bnext s - s.Bn))
  have key : T.D.energy (T.Bnext s) ≤ T.D.energy s.Bn + 1 / 2 * (T.D.norm2 (T.Bnext s - s.Bguess) * T.D.norm2 (T.Bnext s - s.Bn)) := by
    linarith
  refine ⟨key, fun hs => ?_⟩
  have e : T.D.norm2 (T.Bnext s - s.Bguess) = 0 := by rw [hs, sub_self]; simp [DeRham.norm2]
  rw [e, zero_mul, mul_zero, add_zero] at key
  exact key

/-- **C46** (`newton=False`) in `run_relaxation_loop`: every iteration after which no perturbation is applied, accepted or rejected,
raises the magnetic energy by at most half the Picard tolerance times the size of the change of the field; this holds at every point of
every history. -/
theorem C46_loop (hX : IsPinv T.D.dd3 T.pinv) (hn : T.newton = false) (cfg : RelaxConfig) (htol : cfg.solverTol < 1)
    (hmax : 0 < cfg.solverMaxit) (strength : ℝ) (dB : V3 → V3) (clock : Nat → ℝ) (start : ℝ) (i : Nat)
    (l : LoopState T.Field (Matrix (Fin T.D.m2) (Fin T.D.m2) ℝ)) (hdt : 0 ≤ l.state.dt) (heta : 0 ≤ l.state.eta)
    (hpert : ¬ ((i : Int) = cfg.applyPertAfter ∧ cfg.pertStrength > 0)) :
    let l' := relaxIteration cfg (T.env strength dB clock) start i l
    T.D.energy l'.state.Bn ≤ T.D.energy l.state.Bn + 1 / 2 * (cfg.solverTol * T.D.norm2 (l'.state.Bn - l.state.Bn)) := by
  intro l'
  have z : T.D.norm2 (l.state.Bn - l.state.Bn) = 0 := by simp [DeRham.norm2]
  have nn : ∀ x, 0 ≤ T.D.norm2 x := fun x => Real.sqrt_nonneg _
  by_cases hst : l.stopped = true
  · have e : l' = l := by show relaxIteration _ _ _ _ _ = _; unfold relaxIteration; rw [if_pos hst]
    rw [e, z]; linarith
  have hst' : l.stopped = false := by simpa using hst
  by_cases hr : rejected cfg ((T.env strength dB clock).step cfg l.state)
  · have e : l'.state.Bn = l.state.Bn := (C49_rejected_step cfg _ start i l hst' hr).1
    rw [e, z]; linarith
  · have e : l'.state.Bn = ((T.env strength dB clock).step cfg l.state).Bguess := by
      show (relaxIteration _ _ _ _ _).state.Bn = _
      rw [(relaxIteration_accept cfg _ start i l hst' hr).1]
      unfold acceptState
      dsimp only
      simp only [if_neg hpert]
      split_ifs <;> rfl
    obtain ⟨p, p1, p2, p3, p4, p5, p6, _⟩ := C48_last
      (C48_picard_terminates (T.env strength dB clock).upd cfg.solverTol cfg.solverMaxit l.state) htol hmax
    obtain ⟨x, hx, hx'⟩ := (C49_accepted_iff cfg _).1 hr
    have r1 : ((T.env strength dB clock).step cfg l.state).Bguess = T.Bnext p := p5
    have r2 : ((T.env strength dB clock).step cfg l.state).picardResiduum = .fin (T.D.norm2 (T.Bnext p - p.Bguess)) := p6
    have r3 : T.D.norm2 (T.Bnext p - p.Bguess) ≤ cfg.solverTol := by
      rw [r2] at hx; injection hx with hx; rw [hx]; exact hx'
    have := C46_energy_bound h hX hn p (by rw [p2]; exact hdt) (by rw [p3]; exact heta)
    rw [e, r1]
    rw [p1] at this
    have := mul_le_mul_of_nonneg_right r3 (nn (T.Bnext p - l.state.Bn))
    linarith

end

/-- Every midpoint field belongs to an exact step of any size. -/
theorem exact_step (T : Stepper) (B : T.Field) (dt eta : ℝ) (H : Matrix (Fin T.D.m2) (Fin T.D.m2) ℝ) :
    ∃ s : T.St, s.dt = dt ∧ s.eta = eta ∧ s.hessian = H ∧ T.Bmid s = B ∧ T.Bnext s = s.Bguess := by
  let s0 : T.St := ⟨B, B, dt, eta, H, 0, .fin 0, .fin 0, .fin 0⟩
  let d := (dt / 2) • (T.D.strongCurl *ᵥ T.E s0)
  let s : T.St := ⟨B - d, B + d, dt, eta, H, 0, .fin 0, .fin 0, .fin 0⟩
  have b0 : T.Bmid s0 = B := by
    show (1 / 2 : ℝ) • (B + B) = B
    rw [← two_smul ℝ, smul_smul]; norm_num
  have b1 : T.Bmid s = B := by
    show (1 / 2 : ℝ) • (B + d + (B - d)) = B
    rw [add_add_sub_cancel, ← two_smul ℝ, smul_smul]; norm_num
  have hE : T.E s = T.E s0 := by
    simp only [Stepper.E, Stepper.u, Stepper.u0, Stepper.f, Stepper.JxH, Stepper.J, Stepper.Hh, b0, b1, s, s0]
  refine ⟨s, rfl, rfl, rfl, b1, ?_⟩
  show B - d + dt • (T.D.strongCurl *ᵥ T.E s) = B + d
  rw [hE]
  have : dt • (T.D.strongCurl *ᵥ T.E s0) = d + d := by
    show _ = (dt / 2) • _ + (dt / 2) • _
    rw [← add_smul]; congr 1; ring
  rw [this]; abel

/-- non-vacuity: an admissible stepper, a compatible sequence and exact steps with positive step size and resistivity. -/
theorem Stepper.example (polar : Bool) (g : Nat) (newton forceFree : Bool) :
    ∃ T : Stepper, Admissible (5, 6, 4) (3, 2, 1) 4 ("clamped", "periodic", "periodic") (fun y => y) polar true T.D ∧
      Compatible (5, 6, 4) ("clamped", "periodic", "periodic") true ∧ IsPinv T.D.dd3 T.pinv ∧ T.gamma = g ∧ T.newton = newton ∧
      T.forceFree = forceFree := by
  obtain ⟨D, h⟩ := Admissible.example polar true
  obtain ⟨X, hX⟩ := pinv_exists D.dd3
  exact ⟨⟨D, X, fun _ b => b, g, newton, forceFree⟩, h, by constructor <;> simp, hX, rfl, rfl, rfl⟩

example (B : ∀ T : Stepper, T.Field) : ∃ (T : Stepper) (s : T.St),
    Admissible (5, 6, 4) (3, 2, 1) 4 ("clamped", "periodic", "periodic") (fun y => y) true true T.D ∧
    IsPinv T.D.dd3 T.pinv ∧ T.newton = false ∧ T.gamma = 1 ∧ s.dt = 1 ∧ s.eta = 1 ∧ T.Bmid s = B T ∧ T.Bnext s = s.Bguess := by
  obtain ⟨T, h, _, hX, hg, hn, _⟩ := Stepper.example true 1 false false
  obtain ⟨s, h1, h2, _, h3, h4⟩ := exact_step T (B T) 1 1 0
  exact ⟨T, s, h, hX, hn, hg, h1, h2, h3, h4⟩

/-- non-vacuity of the hypotheses on Newton steps: identity Hessian (the initial value in the code), with `lstsq` the pseudo-inverse. -/
example (B : ∀ T : Stepper, T.Field) : ∃ (T : Stepper) (s : T.St),
    Admissible (5, 6, 4) (3, 2, 1) 4 ("clamped", "periodic", "periodic") (fun y => y) true true T.D ∧
    IsPinv T.D.dd3 T.pinv ∧ T.newton = true ∧ T.gamma = 0 ∧ SPSD s.hessian ∧
    (∀ b, ∃ Y, IsPinv s.hessian Y ∧ T.lstsq s.hessian b = Y *ᵥ b) ∧ s.dt = 1 ∧ s.eta = 1 ∧ T.Bnext s = s.Bguess := by
  obtain ⟨D, h⟩ := Admissible.example true true
  obtain ⟨X, hX⟩ := pinv_exists D.dd3
  choose pinv hp using fun A : Matrix (Fin D.m2) (Fin D.m2) ℝ => pinv_exists A
  let T : Stepper := ⟨D, X, fun A b => pinv A *ᵥ b, 0, true, false⟩
  obtain ⟨s, e1, e2, e, _, e3⟩ := exact_step T (B T) 1 1 1
  refine ⟨T, s, h, hX, rfl, rfl, ?_, fun b => ⟨_, hp _, rfl⟩, e1, e2, e3⟩
  rw [e]
  refine ⟨transpose_one, fun x => ?_⟩
  rw [one_mulVec]
  exact Finset.sum_nonneg fun i _ => mul_self_nonneg _

/-! ## The standard case: a stepper and an exact step -/

/-- A pseudo-inverse of every matrix. -/
noncomputable def Case.pinv {n : Nat} (A : Matrix (Fin n) (Fin n) ℝ) : Matrix (Fin n) (Fin n) ℝ := (pinv_exists A).choose

theorem Case.pinv_spec {n : Nat} (A : Matrix (Fin n) (Fin n) ℝ) : IsPinv A (Case.pinv A) := (pinv_exists A).choose_spec

/-- A stepper on the standard case with Dirichlet conditions; `pinv` and `lstsq` use the pseudo-inverse. -/
noncomputable def Case.T (polar : Bool) (g : Nat) (newton forceFree : Bool) : Stepper :=
  ⟨Case.D polar true, Case.pinv (Case.D polar true).dd3, fun A b => Case.pinv A *ᵥ b, g, newton, forceFree⟩

theorem Case.T_adm (polar : Bool) (g : Nat) (newton forceFree : Bool) :
    Admissible (6, 6, 4) (3, 2, 1) 4 ("clamped", "periodic", "periodic") Case.map polar true (Case.T polar g newton forceFree).D :=
  Case.adm polar true

theorem Case.T_pinv (polar : Bool) (g : Nat) (newton forceFree : Bool) :
    IsPinv (Case.T polar g newton forceFree).D.dd3 (Case.T polar g newton forceFree).pinv := Case.pinv_spec _

/-- A step of size 1 whose fixed-point equation holds exactly and whose fields are divergence-free, with the resistivity `eta`. -/
theorem Case.exists_step (polar : Bool) (g : Nat) (newton forceFree : Bool) (eta : ℝ) : ∃ s : (Case.T polar g newton forceFree).St,
    s.dt = 1 ∧ s.eta = eta ∧ s.hessian = 1 ∧ (Case.T polar g newton forceFree).Bnext s = s.Bguess ∧
    (Case.T polar g newton forceFree).D.strongDiv *ᵥ s.Bn = 0 ∧ (Case.T polar g newton forceFree).D.strongDiv *ᵥ s.Bguess = 0 ∧
    (Case.T polar g newton forceFree).Bmid s = (Case.T polar g newton forceFree).D.strongCurl *ᵥ fun _ => 1 := by
  obtain ⟨T, hT⟩ : ∃ T, T = Case.T polar g newton forceFree := ⟨_, rfl⟩
  have h := Case.T_adm polar g newton forceFree
  rw [← hT] at h ⊢
  obtain ⟨s, s1, s2, s3, s4, s5⟩ := exact_step T (T.D.strongCurl *ᵥ fun _ => 1) 1 eta 1
  have dc := (C33_exactness h).2.1
  have e : s.Bn = T.Bmid s - (1 / 2 : ℝ) • (T.D.strongCurl *ᵥ T.E s) := by
    have : T.Bnext s = s.Bn + (1 : ℝ) • (T.D.strongCurl *ᵥ T.E s) := by rw [← s1]; rfl
    unfold Stepper.Bmid
    rw [← s5, this]
    funext i
    simp only [Pi.smul_apply, Pi.add_apply, Pi.sub_apply, smul_eq_mul]
    ring
  have d0 : T.D.strongDiv *ᵥ s.Bn = 0 := by
    rw [e, s4, mulVec_sub, mulVec_smul, mulVec_mulVec, mulVec_mulVec, dc, zero_mulVec, zero_mulVec, smul_zero, sub_zero]
  refine ⟨s, s1, s2, s3, s5, d0, ?_, s4⟩
  rw [← s5]
  show T.D.strongDiv *ᵥ (s.Bn + s.dt • (T.D.strongCurl *ᵥ T.E s)) = 0
  rw [mulVec_add, mulVec_smul, mulVec_mulVec, dc, zero_mulVec, smul_zero, d0, add_zero]

/-- The state of that step. -/
noncomputable def Case.s (polar : Bool) (g : Nat) (newton forceFree : Bool) (eta : ℝ) : (Case.T polar g newton forceFree).St :=
  (Case.exists_step polar g newton forceFree eta).choose

theorem Case.s_spec (polar : Bool) (g : Nat) (newton forceFree : Bool) (eta : ℝ) :
    (Case.s polar g newton forceFree eta).dt = 1 ∧ (Case.s polar g newton forceFree eta).eta = eta ∧
    (Case.s polar g newton forceFree eta).hessian = 1 ∧
    (Case.T polar g newton forceFree).Bnext (Case.s polar g newton forceFree eta) = (Case.s polar g newton forceFree eta).Bguess ∧
    (Case.T polar g newton forceFree).D.strongDiv *ᵥ (Case.s polar g newton forceFree eta).Bn = 0 ∧
    (Case.T polar g newton forceFree).D.strongDiv *ᵥ (Case.s polar g newton forceFree eta).Bguess = 0 ∧
    (Case.T polar g newton forceFree).Bmid (Case.s polar g newton forceFree eta) = (Case.T polar g newton forceFree).D.strongCurl *ᵥ fun _ => 1 :=
  (Case.exists_step polar g newton forceFree eta).choose_spec

/-! Each theorem on the standard case. -/

example (polar : Bool) := C45_update (Case.T_adm polar 1 false false) (Case.s polar 1 false false 1) (Case.s_spec polar 1 false false 1).2.2.2.2.1
example (polar : Bool) (strength : ℝ) (dB) := C45_perturbation (Case.T_adm polar 1 false false) (Case.T_pinv polar 1 false false) strength dB
  (Case.s polar 1 false false 1).Bn (Case.s_spec polar 1 false false 1).2.2.2.2.1
example (polar : Bool) (cfg strength dB clock start t) := C45_divergence_free (Case.T_adm polar 1 false false) (Case.T_pinv polar 1 false false) cfg
  strength dB clock start (Case.s polar 1 false false 1) t (Case.s_spec polar 1 false false 1).2.2.2.2.1 (Case.s_spec polar 1 false false 1).2.2.2.2.2.1
example (polar : Bool) (cfg strength dB clock start) := C45_recorded_divergence (Case.T_adm polar 1 false false) (Case.T_pinv polar 1 false false) cfg
  strength dB clock start (Case.s polar 1 false false 1) (Case.s_spec polar 1 false false 1).2.2.2.2.1 (Case.s_spec polar 1 false false 1).2.2.2.2.2.1
example (polar : Bool) := C46_energy_balance (Case.T_adm polar 1 false false) (Case.s polar 1 false false 1)
example (polar : Bool) := C46_energy_dissipation (Case.T_adm polar 0 false false) (Case.T_pinv polar 0 false false) rfl rfl
  (Case.s polar 0 false false 1) (Case.s_spec polar 0 false false 1).2.2.2.1
example (polar : Bool) := C46_energy_inexact (Case.T_adm polar 0 false false) (Case.T_pinv polar 0 false false) rfl rfl (Case.s polar 0 false false 1)
example (polar : Bool) := C46_energy_bound (Case.T_adm polar 1 false false) (Case.T_pinv polar 1 false false) rfl (Case.s polar 1 false false 1)
  (by rw [(Case.s_spec polar 1 false false 1).1]; norm_num) (by rw [(Case.s_spec polar 1 false false 1).2.1]; norm_num)
example (polar : Bool) := C46_energy_decreases (Case.T_adm polar 1 false false) (Case.T_pinv polar 1 false false) rfl (Case.s polar 1 false false 1)
  (by rw [(Case.s_spec polar 1 false false 1).1]; norm_num) (by rw [(Case.s_spec polar 1 false false 1).2.1]; norm_num)
  (Case.s_spec polar 1 false false 1).2.2.2.1
example (polar : Bool) := C46_newton_energy (Case.T_adm polar 0 true false) (Case.T_pinv polar 0 true false) rfl rfl (Case.s polar 0 true false 1)
  (by rw [(Case.s_spec polar 0 true false 1).2.2.1]
      refine ⟨transpose_one, fun x => ?_⟩
      rw [one_mulVec]
      exact Finset.sum_nonneg fun i _ => mul_self_nonneg _)
  (fun b => ⟨_, Case.pinv_spec _, rfl⟩)
  (by rw [(Case.s_spec polar 0 true false 1).1]; norm_num) (by rw [(Case.s_spec polar 0 true false 1).2.1]; norm_num)

end Mrx.Props
