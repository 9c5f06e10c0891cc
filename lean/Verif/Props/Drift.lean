import Verif.Proofs.Case
import Verif.Proofs.HelicityDrift
import Verif.Proofs.SeqByParts

/-!
# C47: how far a step can change the magnetic helicity

Polar sequences with Dirichlet conditions and admissible parameters (the only ones whose vector potential is well defined, C47/C73).
No assumption on the quadrature is left: the defect of integration by parts comes from the decimals of the code's Gauss tables and is bounded
by `ibpEps`, a multiple of `3e-16`.
-/

set_option linter.unusedSectionVars false
set_option linter.unusedVariables false

namespace Mrx.Props
open Spec Matrix DeRham Finset

section
variable {ns ps : Nat × Nat × Nat} {q : Nat} {types : String × String × String} {F : V3 → V3} {polar dirichlet : Bool} {D : DeRham}

theorem admissible_byParts (h : Admissible ns ps q types F true dirichlet D) (hc : Compatible ns types dirichlet) :
    D.S.ByParts (ibpEps ns ps q) (ibpBound ns ps) := by
  have hS := Admissible.seq h.built
  have hr := h.r
  have ht := h.t
  have hz := h.z
  have h1 := hc.r
  have h2 := hc.t
  have h3 := hc.z
  have h4 := hc.nz
  have h5 := hc.nr
  have h6 := (h.polar rfl).2.2.2.2
  obtain ⟨t1, t2, t3⟩ := types
  simp only at h1 h2 h3 hr ht hz
  subst h1
  exact seq_byParts hS h.q10 hr ht hz h2 h3 h4 (by omega)

/-- The bound is the size of the decimals of the tables: at most `6e-16` times a quantity that depends on the sizes and degrees only. -/
theorem ibpEps_le (ns ps : Nat × Nat × Nat) (q : Nat) {N p : Nat} (h1 : ns.1 ≤ N) (h2 : ns.2.1 ≤ N) (h3 : ns.2.2 ≤ N)
    (p1 : ps.1 ≤ p) (p2 : ps.2.1 ≤ p) (p3 : ps.2.2 ≤ p) : ibpEps ns ps q ≤ 6 / 10 ^ 16 * (N * p * 4 ^ (p + 1)) := by
  have key : ∀ n r : Nat, n ≤ N → r ≤ p → dirEps n r q ≤ 6 / 10 ^ 16 * (N * p * 4 ^ (p + 1)) := by
    intro n r hn hr
    have a : (n : ℝ) ≤ N := by exact_mod_cast hn
    have b : (r : ℝ) ≤ p := by exact_mod_cast hr
    have c : (4 : ℝ) ^ (r + 1) ≤ 4 ^ (p + 1) := pow_le_pow_right₀ (by norm_num) (by omega)
    have d : (n : ℝ) * r * 4 ^ (r + 1) ≤ N * p * 4 ^ (p + 1) :=
      mul_le_mul (mul_le_mul a b (by positivity) (by positivity)) c (by positivity) (by positivity)
    unfold dirEps
    calc _ = 2 * tabEps q r * ((n : ℝ) * r * 4 ^ (r + 1)) := by ring
      _ ≤ 6 / 10 ^ 16 * ((n : ℝ) * r * 4 ^ (r + 1)) :=
        mul_le_mul_of_nonneg_right (by linarith [tabEps_le q r]) (by positivity)
      _ ≤ _ := mul_le_mul_of_nonneg_left d (by norm_num)
  exact max_le (key _ _ h1 p1) (max_le (key _ _ h2 p2) (key _ _ h3 p3))

/-- **C47** integration by parts on the code's spaces, up to the decimals of the Gauss tables: `∫ a · curl b = ∫ b · curl a` for 1-forms,
and `∫ grad φ · B = 0` for divergence-free 2-forms. -/
theorem C47_integration_by_parts (h : Admissible ns ps q types F true true D) (hc : Compatible ns types true) :
    (∀ a b, |a ⬝ᵥ D.M12 *ᵥ (D.strongCurl *ᵥ b) - b ⬝ᵥ D.M12 *ᵥ (D.strongCurl *ᵥ a)|
      ≤ ibpEps ns ps q * 4 * ibpBound ns ps ^ 2 * (ell1 (D.E1ᵀ *ᵥ a) * ell1 (D.E1ᵀ *ᵥ b))) ∧
    ∀ φ B, D.strongDiv *ᵥ B = 0 → |(D.strongGrad *ᵥ φ) ⬝ᵥ D.M12 *ᵥ B|
      ≤ ibpEps ns ps q * 4 * ibpBound ns ps ^ 2 * (ell1 (D.E0ᵀ *ᵥ φ) * ell1 (D.E2ᵀ *ᵥ B)) := by
  have hb := admissible_byParts h hc
  exact ⟨fun a b => sigma_bound h hc hb a b, fun φ B hB => gamma_bound h hc hb φ B hB⟩

end

section
variable {ns ps : Nat × Nat × Nat} {q : Nat} {types : String × String × String} {F : V3 → V3} {T : Stepper}
  (h : Admissible ns ps q types F true true T.D) (hc : Compatible ns types true)
include h hc

/-- **C47** any update (converged or not, ideal or resistive, any velocity option, any step size, also negative), from any divergence-free
field: the helicity changes by the resistive term `-2 dt η ∫ J · B_mid` up to the Picard residual times the size of the electric field, and up to
the decimals of the Gauss tables. -/
theorem C47_helicity_drift (s : T.St) (hdiv : T.D.strongDiv *ᵥ s.Bn = 0) :
    |T.D.helicity (T.Bnext s) - T.D.helicity s.Bn + 2 * s.dt * s.eta * (T.J s ⬝ᵥ T.D.M12 *ᵥ T.Bmid s)| ≤
      |s.dt| * (√(T.E s ⬝ᵥ T.D.M1 *ᵥ T.E s) * T.D.norm2 (T.Bnext s - s.Bguess)
      + ibpEps ns ps q * 4 * ibpBound ns ps ^ 2 *
        (ell1 (T.D.E1ᵀ *ᵥ T.D.vectorPotential s.Bn) * ell1 (T.D.E1ᵀ *ᵥ T.D.vectorPotential (T.D.strongCurl *ᵥ T.E s))
        + ell1 (T.D.E0ᵀ *ᵥ (T.D.dd0⁻¹ *ᵥ (T.D.weakDiv *ᵥ T.E s))) * ell1 (T.D.E2ᵀ *ᵥ (s.Bn + T.Bnext s)))) :=
  helicity_drift h hc (admissible_byParts h hc) s hdiv

/-- **C47** a converged ideal step changes the helicity only by the decimals of the Gauss tables. -/
theorem C47_converged_ideal_step (s : T.St) (hdiv : T.D.strongDiv *ᵥ s.Bn = 0) (heta : s.eta = 0) (hs : T.Bnext s = s.Bguess) :
    |T.D.helicity (T.Bnext s) - T.D.helicity s.Bn| ≤ ibpEps ns ps q * (4 * ibpBound ns ps ^ 2 * |s.dt| *
        (ell1 (T.D.E1ᵀ *ᵥ T.D.vectorPotential s.Bn) * ell1 (T.D.E1ᵀ *ᵥ T.D.vectorPotential (T.D.strongCurl *ᵥ T.E s))
        + ell1 (T.D.E0ᵀ *ᵥ (T.D.dd0⁻¹ *ᵥ (T.D.weakDiv *ᵥ T.E s))) * ell1 (T.D.E2ᵀ *ᵥ (s.Bn + T.Bnext s)))) := by
  have := C47_helicity_drift h hc s hdiv
  have e : T.D.norm2 (T.Bnext s - s.Bguess) = 0 := by rw [hs, sub_self]; simp [DeRham.norm2]
  rw [heta, e, mul_zero, mul_zero, zero_mul, add_zero, zero_add] at this
  refine this.trans (le_of_eq ?_)
  ring

omit h hc in
theorem ibpEps_linear (h1 : ps.1 ≤ 1) (h2 : ps.2.1 ≤ 1) (h3 : ps.2.2 ≤ 1) (hq : q ≤ 2) : ibpEps ns ps q = 0 := by
  unfold ibpEps dirEps tabEps
  rw [if_pos ⟨h1, hq⟩, if_pos ⟨h2, hq⟩, if_pos ⟨h3, hq⟩]
  simp

/-- **C47** with linear splines and two points per element (whose tabulated weights are exact) nothing is lost: integration by parts holds
exactly, and a converged ideal step conserves the helicity exactly. -/
theorem C47_linear_splines_exact (h1 : ps.1 ≤ 1) (h2 : ps.2.1 ≤ 1) (h3 : ps.2.2 ≤ 1) (hq : q ≤ 2) :
    (∀ a b, a ⬝ᵥ T.D.M12 *ᵥ (T.D.strongCurl *ᵥ b) = b ⬝ᵥ T.D.M12 *ᵥ (T.D.strongCurl *ᵥ a)) ∧
    (∀ φ B, T.D.strongDiv *ᵥ B = 0 → (T.D.strongGrad *ᵥ φ) ⬝ᵥ T.D.M12 *ᵥ B = 0) ∧
    ∀ s : T.St, T.D.strongDiv *ᵥ s.Bn = 0 → s.eta = 0 → T.Bnext s = s.Bguess → T.D.helicity (T.Bnext s) = T.D.helicity s.Bn := by
  have e := ibpEps_linear (ns := ns) h1 h2 h3 hq
  have hi := C47_integration_by_parts h hc
  rw [e] at hi
  simp only [zero_mul, abs_nonpos_iff] at hi
  refine ⟨fun a b => sub_eq_zero.mp (hi.1 a b), hi.2, fun s hdiv heta hs => ?_⟩
  have := C47_converged_ideal_step h hc s hdiv heta hs
  rw [e, zero_mul, abs_nonpos_iff] at this
  exact sub_eq_zero.mp this

/-- **C47** in `run_relaxation_loop` without resistivity: any iteration, accepted or rejected, after which no perturbation is applied, changes the
helicity by at most the Picard tolerance times the size of the electric field of the last Picard iterate `p`, and the decimals of the
tables. -/
theorem C47_loop (cfg : RelaxConfig) (htol : cfg.solverTol < 1)
    (hmax : 0 < cfg.solverMaxit) (strength : ℝ) (dB : V3 → V3) (clock : Nat → ℝ) (start : ℝ) (i : Nat)
    (l : LoopState T.Field (Matrix (Fin T.D.m2) (Fin T.D.m2) ℝ)) (hdiv : T.D.strongDiv *ᵥ l.state.Bn = 0) (heta : l.state.eta = 0)
    (hpert : ¬ ((i : Int) = cfg.applyPertAfter ∧ cfg.pertStrength > 0)) :
    let l' := relaxIteration cfg (T.env strength dB clock) start i l
    l'.state.Bn = l.state.Bn ∨ ∃ p : T.St, p.Bn = l.state.Bn ∧ p.dt = l.state.dt ∧ p.eta = 0 ∧ l'.state.Bn = T.Bnext p ∧
      |T.D.helicity l'.state.Bn - T.D.helicity l.state.Bn| ≤ |l.state.dt| * (√(T.E p ⬝ᵥ T.D.M1 *ᵥ T.E p) * cfg.solverTol
      + ibpEps ns ps q * 4 * ibpBound ns ps ^ 2 *
        (ell1 (T.D.E1ᵀ *ᵥ T.D.vectorPotential p.Bn) * ell1 (T.D.E1ᵀ *ᵥ T.D.vectorPotential (T.D.strongCurl *ᵥ T.E p))
        + ell1 (T.D.E0ᵀ *ᵥ (T.D.dd0⁻¹ *ᵥ (T.D.weakDiv *ᵥ T.E p))) * ell1 (T.D.E2ᵀ *ᵥ (p.Bn + T.Bnext p)))) := by
  intro l'
  by_cases hst : l.stopped = true
  · left
    have e : l' = l := by show relaxIteration _ _ _ _ _ = _; unfold relaxIteration; rw [if_pos hst]
    rw [e]
  have hst' : l.stopped = false := by simpa using hst
  by_cases hr : rejected cfg ((T.env strength dB clock).step cfg l.state)
  · left
    exact (C49_rejected_step cfg _ start i l hst' hr).1
  · right
    have e : l'.state.Bn = ((T.env strength dB clock).step cfg l.state).Bguess := by
      show (relaxIteration _ _ _ _ _).state.Bn = _
      rw [(relaxIteration_accept cfg _ start i l hst' hr).1]
      unfold acceptState
      dsimp only
      simp only [if_neg hpert]
      split_ifs <;> rfl
    obtain ⟨p, p1, p2, p3, p4, p5, p6, _⟩ := C48_last
      (C48_picard_terminates (T.env strength dB clock).upd cfg.solverTol cfg.solverMaxit l.state) htol hmax
    obtain ⟨x, hx, hx'⟩ := (C49_accepted_iff cfg _).1 hr
    have r1 : ((T.env strength dB clock).step cfg l.state).Bguess = T.Bnext p := p5
    have r2 : ((T.env strength dB clock).step cfg l.state).picardResiduum = .fin (T.D.norm2 (T.Bnext p - p.Bguess)) := p6
    have r3 : T.D.norm2 (T.Bnext p - p.Bguess) ≤ cfg.solverTol := by
      rw [r2] at hx; injection hx with hx; rw [hx]; exact hx'
    refine ⟨p, p1, p2, p3.trans heta, e.trans r1, ?_⟩
    have hd := C47_helicity_drift h hc p (by rw [p1]; exact hdiv)
    rw [show p.eta = 0 from p3.trans heta, mul_zero, zero_mul, add_zero] at hd
    rw [e, r1]
    have hb : T.D.helicity l.state.Bn = T.D.helicity p.Bn := by rw [p1]
    have hdt : |l.state.dt| = |p.dt| := by rw [p2]
    rw [hb, hdt]
    refine hd.trans (mul_le_mul_of_nonneg_left ?_ (abs_nonneg _))
    have := mul_le_mul_of_nonneg_left r3 (Real.sqrt_nonneg (T.E p ⬝ᵥ T.D.M1 *ᵥ T.E p))
    linarith

end

/-- non-vacuity: a converged ideal step from a divergence-free field. -/
example : ∃ (T : Stepper) (s : T.St), Admissible (5, 6, 4) (3, 2, 1) 4 ("clamped", "periodic", "periodic") (fun y => y) true true T.D ∧
    Compatible (5, 6, 4) ("clamped", "periodic", "periodic") true ∧ s.dt = 1 ∧ s.eta = 0 ∧ T.Bnext s = s.Bguess ∧
    T.D.strongDiv *ᵥ s.Bn = 0 := by
  obtain ⟨T, h, _, hX, hg, hn, _⟩ := Stepper.example true 1 false false
  have hc : Compatible (5, 6, 4) ("clamped", "periodic", "periodic") true := by constructor <;> simp
  obtain ⟨s, s1, s2, _, s4, s5⟩ := exact_step T (T.D.strongCurl *ᵥ fun _ => 1) 1 0 0
  refine ⟨T, s, h, hc, s1, s2, s5, ?_⟩
  have dc := (C33_exactness h).2.1
  have e : s.Bn = T.Bmid s - (1 / 2 : ℝ) • (T.D.strongCurl *ᵥ T.E s) := by
    have : T.Bnext s = s.Bn + (1 : ℝ) • (T.D.strongCurl *ᵥ T.E s) := by rw [← s1]; rfl
    unfold Stepper.Bmid
    rw [← s5, this]
    funext i
    simp only [Pi.smul_apply, Pi.add_apply, Pi.sub_apply, smul_eq_mul]
    ring
  rw [e, s4, mulVec_sub, mulVec_smul, mulVec_mulVec, mulVec_mulVec, dc, zero_mulVec, zero_mulVec, smul_zero, sub_zero]

/-! Each theorem on the standard case. -/

example := C47_integration_by_parts (Case.adm true true) (Case.compat true)
example := C47_helicity_drift (Case.T_adm true 1 false false) (Case.compat true) (Case.s true 1 false false 1) (Case.s_spec true 1 false false 1).2.2.2.2.1
example := C47_converged_ideal_step (Case.T_adm true 1 false false) (Case.compat true) (Case.s true 1 false false 0)
  (Case.s_spec true 1 false false 0).2.2.2.2.1 (Case.s_spec true 1 false false 0).2.1 (Case.s_spec true 1 false false 0).2.2.2.1

/-- A stepper on 6 × 6 × 4 linear splines with two points per element. -/
theorem Case.linear : ∃ T : Stepper, Admissible (6, 6, 4) (1, 1, 1) 2 ("clamped", "periodic", "periodic") Case.map true true T.D := by
  obtain ⟨D, h⟩ := Admissible.exists (ns := (6, 6, 4)) (ps := (1, 1, 1)) (q := 2) (types := ("clamped", "periodic", "periodic"))
    Case.map true true (by norm_num) (by unfold DirOK; norm_num) (by unfold DirOK; norm_num) (by unfold DirOK; norm_num)
    (by intro _; simp) fun x => by rw [Case.map_det]; norm_num
  exact ⟨⟨D, Case.pinv D.dd3, fun A b => Case.pinv A *ᵥ b, 1, false, false⟩, h⟩

example := C47_linear_splines_exact Case.linear.choose_spec (Case.compat true) (le_refl _) (le_refl _) (le_refl _) (le_refl _)

/-- Case of `C47_potential_of_invertible` and `C47_helicity_exact_quadrature`: linear splines. -/
example (e) := C47_potential_of_invertible (Case.adm true true) ((C73_laplacians_invertible_iff (Case.adm true true) ⟨rfl, by decide, by decide⟩).2.1.mpr ⟨rfl, rfl, le_refl _⟩) e

example := C47_helicity_exact_quadrature Case.linear.choose_spec ((C73_laplacians_invertible_iff Case.linear.choose_spec ⟨rfl, by decide, by decide⟩).2.1.mpr ⟨rfl, rfl, le_refl _⟩)
  (C47_linear_splines_exact Case.linear.choose_spec (Case.compat true) (le_refl _) (le_refl _) (le_refl _) (le_refl _)).1
  (C47_linear_splines_exact Case.linear.choose_spec (Case.compat true) (le_refl _) (le_refl _) (le_refl _) (le_refl _)).2.1

end Mrx.Props
