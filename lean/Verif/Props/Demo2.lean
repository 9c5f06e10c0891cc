import Verif.Props.Demo
import Verif.Props.InitialFields
import Verif.Props.Start
import Verif.Props.Studies

/-!
# C122: the set-up of the demo notebook

Map, sequence and initial field of the first equilibrium of `MRX_tokamak_demo.ipynb`, and what its relaxation keeps.
-/

set_option linter.unusedSectionVars false
set_option linter.unusedVariables false

namespace Mrx.Props
open Finset Spec Matrix Real Manufactured

/-- **C122** ("this map is also available predefined") the map of the notebook is `toroid_map(eps=0.33, kappa=1.1, R0=1)`; the sequence is built, and admissible. -/
theorem C122_geometry : (∀ x, Demo.phi x = toroidMap 0.33 1.1 1 x) ∧
    ∃ D, Demo.seq = .ok D ∧ Admissible (12, 12, 1) (3, 3, 0) 5 ("clamped", "periodic", "constant") Demo.phi true true D := by
  have e : ∀ x, Demo.phi x = toroidMap 0.33 1.1 1 x := fun x => rfl
  refine ⟨e, ?_⟩
  have hs : Sizes (12, 12, 1) (3, 3, 0) 5 ("clamped", "periodic", "constant") true := polar_sizes (n := 12) (p := 3) (by norm_num) (by norm_num) (by norm_num) (by norm_num) (by norm_num)
  have ef : Demo.phi = toroidMap 0.33 1.1 1 := funext e
  rw [Demo.seq, ef]
  obtain ⟨D, hb⟩ := hs.built (toroidMap 0.33 1.1 1) true
  refine ⟨D, hb, (C105_toroid_map (by norm_num) (by norm_num) (by norm_num) hs hb).1 ?_⟩
  have b := (innermost_bounds hs.m.1 hs.m.2 hs.q10).1
  have k : 1 / (77 * 9 : ℝ) ≤ innermost (12 - 3) 5 := by
    refine le_trans (le_of_eq ?_) b
    norm_num
  have : (2 * 3.141592) ^ 2 * 0.33 ^ 2 * 1.1 * (1 - 0.33) * (1 / (77 * 9)) ≤ (2 * π) ^ 2 * 0.33 ^ 2 * 1.1 * (1 - 0.33) * innermost (12 - 3) 5 := by
    have := pi_gt_d6.le
    gcongr
  refine le_trans ?_ this
  norm_num

/-- The distance of a point of the torus from the axis is positive. -/
theorem demo_off_axis {p : V3} (h0 : 0 ≤ p 0) (h1 : p 0 ≤ 1) : 0 < Demo.phi p 0 ^ 2 + Demo.phi p 1 ^ 2 := by
  have hc := neg_one_le_cos (2 * π * p 1)
  have hR : 0 < 1 + 0.33 * p 0 * cos (2 * π * p 1) := by nlinarith
  have : Demo.phi p 0 ^ 2 + Demo.phi p 1 ^ 2 = (1 + 0.33 * p 0 * cos (2 * π * p 1)) ^ 2 := by
    simp only [Demo.phi, cons_val_zero, cons_val_one]
    nlinarith [sin_sq_add_cos_sq (2 * π * p 2)]
  rw [this]
  positivity

/-- **C122** ("Solov'ev state") the initial field is, at every logical point of the torus, the value of one field of physical space which is divergence-free and in force balance `J × B = ∇p` with a smooth
pressure. ("does not satisfy our boundary conditions") At the top of the cross-section it crosses the boundary: the tangent vectors there have no z-component, the field has. -/
theorem C122_initial_field :
    (∃ B : V3 → V3, ∃ pr : V3 → ℝ, ∀ p : V3, 0 ≤ p 0 → p 0 ≤ 1 → Demo.b0 p = B (Demo.phi p) ∧ HasDivergence B 0 (Demo.phi p) ∧
      ∃ J, HasCurl B J (Demo.phi p) ∧ HasGradientAt3 pr (crossProduct J (B (Demo.phi p))) (Demo.phi p)) ∧
    Demo.b0 ![1, 1 / 4, 0] 2 < 0 ∧ HasPD (fun z => Demo.phi z 2) 1 0 ![1, 1 / 4, 0] ∧ HasPD (fun z => Demo.phi z 2) 2 0 ![1, 1 / 4, 0] := by
  refine ⟨⟨solovevB 1.1 (iterTau 1.54 1.1), fun z => -(1 + 1.1 ^ 2) * fluxPsi 1.1 z, fun p h0 h1 => ⟨?_, ?_⟩⟩, ?_, ?_, ?_⟩
  · have et : Demo.tau = iterTau 1.54 1.1 := by unfold Demo.tau iterTau; norm_num
    unfold Demo.b0 solovevB
    rw [et]
    dsimp only
    norm_num
  · obtain ⟨a, J, b, hJ, c, -⟩ := C85_solovev_equilibrium 1.1 (iterTau 1.54 1.1) (demo_off_axis h0 h1)
    refine ⟨a, J, b, ?_⟩
    convert c using 1
    try (rw [cross_apply])
  · have q : (2 * π * (1 / 4) : ℝ) = π / 2 := by ring
    have ph : Demo.phi ![1, 1 / 4, 0] = ![1, 0, 0.33 * 1.1] := by
      funext i
      fin_cases i
      · change (1 + 0.33 * 1 * cos (2 * π * (1 / 4))) * cos (2 * π * 0) = 1
        rw [q, cos_pi_div_two]; simp
      · change -(1 + 0.33 * 1 * cos (2 * π * (1 / 4))) * sin (2 * π * 0) = 0
        simp
      · change 0.33 * 1.1 * 1 * sin (2 * π * (1 / 4)) = 0.33 * 1.1
        rw [q, sin_pi_div_two]; ring
    unfold Demo.b0
    rw [ph]
    change -(0.5 * 1.1 ^ 2 * (√ (1 ^ 2 + 0 ^ 2) ^ 2 - 1 ^ 2) + (0.33 * 1.1) ^ 2) < (0 : ℝ)
    rw [sq_sqrt (by norm_num)]
    norm_num
  · have h1 := (((HasPD.const (2 * π) 1 (![1, 1 / 4, 0] : V3)).mul' (HasPD.coord 1 (![1, 1 / 4, 0] : V3))).comp' (hasDerivAt_sin _))
    have h0 := (HasPD.const (0.33 * 1.1) 1 (![1, 1 / 4, 0] : V3)).mul' (HasPD.coord_ne (i := 0) (j := 1) (by decide) (![1, 1 / 4, 0] : V3))
    have h := h0.mul' h1
    have q : (2 * π * (1 / 4) : ℝ) = π / 2 := by ring
    rw [show (fun z => Demo.phi z 2) = fun z => 0.33 * 1.1 * z 0 * sin (2 * π * z 1) from rfl]
    convert h using 1
    change (0 : ℝ) = (0 * 1 + 0.33 * 1.1 * 0) * sin (2 * π * (1 / 4)) + 0.33 * 1.1 * 1 * (cos (2 * π * (1 / 4)) * (0 * (1 / 4) + 2 * π * 1))
    rw [q, cos_pi_div_two]
    simp
  · have h1 := (((HasPD.const (2 * π) 2 (![1, 1 / 4, 0] : V3)).mul' (HasPD.coord_ne (i := 1) (j := 2) (by decide) (![1, 1 / 4, 0] : V3))).comp' (hasDerivAt_sin _))
    have h0 := (HasPD.const (0.33 * 1.1) 2 (![1, 1 / 4, 0] : V3)).mul' (HasPD.coord_ne (i := 0) (j := 2) (by decide) (![1, 1 / 4, 0] : V3))
    have h := h0.mul' h1
    rw [show (fun z => Demo.phi z 2) = fun z => 0.33 * 1.1 * z 0 * sin (2 * π * z 1) from rfl]
    convert h using 1
    simp

section
variable {T : Stepper} (h : Admissible (12, 12, 1) (3, 3, 0) 5 ("clamped", "periodic", "constant") Demo.phi true true T.D)
include h

/-- **C122** the relaxation of the notebook from its initial field: the field is divergence-free at the start and after every number of iterations; it starts with norm 1 and energy 1/2 (unless the
projection vanishes), and no iteration raises the energy by more than half the Picard tolerance times its change of the field. -/
theorem C122_run (hX : IsPinv T.D.dd3 T.pinv) (hn : T.newton = false) (H : Matrix (Fin T.D.m2) (Fin T.D.m2) ℝ) (tol : ℝ) (htol : tol < 1) (maxit : Int) (hmax : 0 < maxit) :
    let B := fun n => ((Demo.loopBody (Mrx.step T.update tol maxit) tol)^[n] (Demo.initialState T H)).Bn
    (∀ n, T.D.strongDiv *ᵥ B n = 0) ∧
    (T.D.divfreeProjection T.pinv Demo.b0 ≠ 0 → T.D.norm2 (B 0) = 1 ∧ T.D.energy (B 0) = 1 / 2) ∧
    ∀ n, T.D.energy (B (n + 1)) ≤ T.D.energy (B n) + 1 / 2 * (tol * T.D.norm2 (B (n + 1) - B n)) := by
  intro B
  have ps := C77_projected_start h hX 1 0 Demo.b0 (fun _ => 0)
  have e : T.D.projectedStart T.pinv 1 0 Demo.b0 (fun _ => 0) = Demo.initialField T.D T.pinv := by
    unfold DeRham.projectedStart Demo.initialField
    simp
  rw [e] at ps
  refine ⟨fun n => (C122_divergence_free h tol maxit (Demo.initialState T H) ps.1 ps.1 n).1, fun hne => ?_, fun n => ?_⟩
  · obtain ⟨a, b, -⟩ := ps.2.1 hne (by norm_num)
    exact ⟨a, b⟩
  · have hs : ∀ s : T.St, (Mrx.step T.update tol maxit s).dt = s.dt ∧ (Mrx.step T.update tol maxit s).eta = s.eta := fun s =>
      ⟨(C48_frame (C48_picard_terminates T.update tol maxit s)).2.1, (C48_frame (C48_picard_terminates T.update tol maxit s)).2.2.1⟩
    have t := C122_time_step (Mrx.step T.update tol maxit) tol hs (Demo.initialState T H) n
    have en := C122_energy h hX hn tol htol maxit hmax ((Demo.loopBody (Mrx.step T.update tol maxit) tol)^[n] (Demo.initialState T H))
    simp only [B, Function.iterate_succ_apply']
    dsimp only at t en
    exact en (t.2.1 (by norm_num [Demo.initialState])).le (le_of_eq t.2.2.symm)

end

/-- The hypotheses of `C122_run` hold for the notebook's sequence. -/
example : ∃ T : Stepper, Demo.seq = .ok T.D ∧ Admissible (12, 12, 1) (3, 3, 0) 5 ("clamped", "periodic", "constant") Demo.phi true true T.D ∧ IsPinv T.D.dd3 T.pinv ∧ T.newton = false := by
  obtain ⟨D, e, h⟩ := C122_geometry.2
  exact ⟨⟨D, Case.pinv D.dd3, fun _ b => b, 0, false, false⟩, e, h, Case.pinv_spec D.dd3, rfl⟩
example : (0 : ℝ) ≤ (![1 / 2, 1 / 3, 0] : V3) 0 ∧ (![1 / 2, 1 / 3, 0] : V3) 0 ≤ 1 := by norm_num

end Mrx.Props
