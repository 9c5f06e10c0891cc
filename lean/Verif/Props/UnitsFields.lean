import Verif.Proofs.Case
import Verif.Props.UnitsRun
import Verif.Proofs.Fields

/-!
# C97: projected fields and whole runs in other units
-/

set_option linter.unusedSectionVars false
set_option linter.unusedVariables false

namespace Mrx.Props
open Matrix Mrx Spec

section
variable {ns ps : Nat × Nat × Nat} {q : Nat} {types : String × String × String} {F : V3 → V3} {polar dirichlet : Bool} {D : DeRham} {s : ℝ} (hs : 0 < s) {R : M33}
  (hR : IsRotation R) (b : V3) (h : Admissible ns ps q types F polar dirichlet D)
  (h' : Admissible ns ps q types (similarity s R b F) polar dirichlet (withMap D (similarity s R b F)))
include hs hR h h'

/-- **C97** the projections of a function or of a field that is turned with the device. -/
theorem C97_projectors (f : V3 → Fin 1 → ℝ) (v : V3 → V3) :
    ((withMap D (similarity s R b F)).projector0 f : Fin D.m0 → ℝ) = s ^ 3 • D.projector0 f ∧
    ((withMap D (similarity s R b F)).projector1 (fun x => R *ᵥ v x) : Fin D.m1 → ℝ) = s ^ 2 • D.projector1 v ∧
    ((withMap D (similarity s R b F)).projector2 (fun x => R *ᵥ v x) : Fin D.m2 → ℝ) = s • D.projector2 v ∧
    ((withMap D (similarity s R b F)).projector3 f : Fin D.m3 → ℝ) = D.projector3 f := by
  have r := rescaled hs hR b h h'
  have hF : D.F = F := (Admissible.metric h.built).2
  have hRt : R * Rᵀ = 1 := mul_eq_one_comm.1 hR.orth
  refine ⟨?_, ?_, ?_, rfl⟩
  · change D.E0 *ᵥ integrateAgainst D.S.getLambda0 D.nq 1 (fun j k => f (D.x j) k * (D.w j * (withMap D (similarity s R b F)).g.J j)) D.S.L0.dims.n = _
    rw [r.integrate (c := s ^ 3) (w := fun j k => f (D.x j) k * (D.w j * D.g.J j)) (fun j hj k => by rw [r.J j hj]; ring), mulVec_smul]
    rfl
  · change D.E1 *ᵥ integrateAgainst D.S.getLambda1 D.nq 3
      (fun j k => (inv33 (jacfwd (similarity s R b F) (D.x j)) *ᵥ (R *ᵥ v (D.x j))) k * (D.w j * (withMap D (similarity s R b F)).g.J j)) D.S.L1.dims.n = _
    rw [r.integrate (c := s ^ 2) (w := fun j k => (inv33 (jacfwd D.F (D.x j)) *ᵥ v (D.x j)) k * (D.w j * D.g.J j)) (fun j hj k => ?_), mulVec_smul]
    · rfl
    have e1 := (h.metricAt hj).2.2.1
    have e2 : inv33 (jacfwd (similarity s R b F) (D.x j)) = (jacfwd (similarity s R b F) (D.x j))⁻¹ := (h'.metricAt (j := j) hj).2.2.1
    have e3 : (s • (R * jacfwd F (D.x j)))⁻¹ = s⁻¹ • ((jacfwd F (D.x j))⁻¹ * Rᵀ) := by
      rw [inv_scale _ hs.ne', Matrix.mul_inv_rev, inv_eq_left_inv hR.orth]
    rw [hF, e2, jacfwd_similarity hs.ne' hR, e3, e1, r.J j hj, smul_mulVec, mulVec_mulVec, Matrix.mul_assoc, hR.orth, Matrix.mul_one, Pi.smul_apply, smul_eq_mul]
    have := hs.ne'
    field_simp
  · change D.E2 *ᵥ integrateAgainst D.S.getLambda2 D.nq 3 (fun j k => ((jacfwd (similarity s R b F) (D.x j))ᵀ *ᵥ (R *ᵥ v (D.x j))) k * D.w j) D.S.L2.dims.n = _
    rw [r.integrate (c := s) (w := fun j k => ((jacfwd D.F (D.x j))ᵀ *ᵥ v (D.x j)) k * D.w j) (fun j hj k => ?_), mulVec_smul]
    · rfl
    rw [hF, jacfwd_similarity hs.ne' hR, transpose_smul, transpose_mul, smul_mulVec, mulVec_mulVec, Matrix.mul_assoc, hR.orth, Matrix.mul_one, Pi.smul_apply, smul_eq_mul, mul_assoc]

/-- **C97** so the coefficients of the projected 0-, 1-, 2- and 3-forms are in units of length to the power 0, 1, 2 and 3: what is projected is the same form. -/
theorem C97_projections (f : V3 → Fin 1 → ℝ) (v : V3 → V3) :
    ((withMap D (similarity s R b F)).M0 : Matrix (Fin D.m0) (Fin D.m0) ℝ)⁻¹ *ᵥ ((withMap D (similarity s R b F)).projector0 f : Fin D.m0 → ℝ) = D.M0⁻¹ *ᵥ D.projector0 f ∧
    ((withMap D (similarity s R b F)).M1 : Matrix (Fin D.m1) (Fin D.m1) ℝ)⁻¹ *ᵥ ((withMap D (similarity s R b F)).projector1 (fun x => R *ᵥ v x) : Fin D.m1 → ℝ) =
      s • (D.M1⁻¹ *ᵥ D.projector1 v) ∧
    ((withMap D (similarity s R b F)).M2 : Matrix (Fin D.m2) (Fin D.m2) ℝ)⁻¹ *ᵥ ((withMap D (similarity s R b F)).projector2 (fun x => R *ᵥ v x) : Fin D.m2 → ℝ) =
      s ^ 2 • (D.M2⁻¹ *ᵥ D.projector2 v) ∧
    ((withMap D (similarity s R b F)).M3 : Matrix (Fin D.m3) (Fin D.m3) ℝ)⁻¹ *ᵥ ((withMap D (similarity s R b F)).projector3 f : Fin D.m3 → ℝ) =
      s ^ 3 • (D.M3⁻¹ *ᵥ D.projector3 f) := by
  have r := rescaled hs hR b h h'
  obtain ⟨p0, p1, p2, p3⟩ := C97_projectors hs hR b h h' f v
  have s0 := hs.ne'
  refine ⟨?_, ?_, ?_, ?_⟩
  · rw [p0, r.M0, inv_scale _ (pow_ne_zero 3 s0), smul_mulVec, mulVec_smul, smul_smul, inv_mul_cancel₀ (pow_ne_zero 3 s0), one_smul]
  · rw [p1, r.M1, inv_scale _ s0, smul_mulVec, mulVec_smul, smul_smul, show s⁻¹ * s ^ 2 = s by field_simp]
  · rw [p2, r.M2inv, smul_mulVec, mulVec_smul, smul_smul, ← sq]
  · rw [p3, r.M3, inv_scale _ (inv_ne_zero (pow_ne_zero 3 s0)), inv_inv, smul_mulVec]

end

section
variable {ns ps : Nat × Nat × Nat} {q : Nat} {types : String × String × String} {F : V3 → V3} {polar dirichlet : Bool} {T : Stepper} {s c : ℝ} (hs : 0 < s) (hc : 0 < c)
  {R : M33} (hR : IsRotation R) (b : V3) (h : Admissible ns ps q types F polar dirichlet T.D)
  (h' : Admissible ns ps q types (similarity s R b F) polar dirichlet (withMap T.D (similarity s R b F))) (hn : T.newton = false) (hg : T.gamma = 0)
include hs hc hR h h'

theorem units_perturb (strength : ℝ) (dB : V3 → V3) (B : T.Field) :
    ((otherUnits T (similarity s R b F) s).perturb (c / √s * strength) (fun x => R *ᵥ dB x) (c • B) : T.Field) = c • T.perturb strength dB B := by
  have r := rescaled hs hR b h h'
  have p := (C97_projections hs hR b h h' (fun _ _ => 0) dB).2.2.1
  have s0 := hs.ne'
  have sq0 : √s ≠ 0 := (Real.sqrt_pos.2 hs).ne'
  have ed : ((withMap T.D (similarity s R b F)).leray (s ^ 2 • T.pinv) : Matrix (Fin T.D.m2) (Fin T.D.m2) ℝ) *ᵥ
      (((withMap T.D (similarity s R b F)).M2 : Matrix (Fin T.D.m2) (Fin T.D.m2) ℝ)⁻¹ *ᵥ ((withMap T.D (similarity s R b F)).projector2 (fun x => R *ᵥ dB x) : Fin T.D.m2 → ℝ)) =
      s ^ 2 • (T.D.leray T.pinv *ᵥ (T.D.M2⁻¹ *ᵥ T.D.projector2 dB)) := by
    rw [p, r.leray, mulVec_smul]
  have en : (withMap T.D (similarity s R b F)).norm2 (s ^ 2 • (T.D.leray T.pinv *ᵥ (T.D.M2⁻¹ *ᵥ T.D.projector2 dB))) =
      s ^ 2 / √s * T.D.norm2 (T.D.leray T.pinv *ᵥ (T.D.M2⁻¹ *ᵥ T.D.projector2 dB)) := by
    rw [r.norm2, norm2_smul _ (sq_nonneg s)]; ring
  unfold Stepper.perturb
  dsimp only
  rw [smul_add]
  refine congrArg (c • B + ·) ?_
  refine Eq.trans (congrArg (fun d : T.Field => (c / √s * strength) • (((withMap T.D (similarity s R b F)).norm2 d)⁻¹ • d)) ed) ?_
  rw [en]
  generalize T.D.leray T.pinv *ᵥ (T.D.M2⁻¹ *ᵥ T.D.projector2 dB) = d
  simp only [smul_smul]
  congr 1
  rw [mul_inv]
  field_simp

include hn hg

theorem sameEnv (strength : ℝ) (dB : V3 → V3) (clock : Nat → ℝ) :
    SameEnv (V := T.Field) c s (T.env strength dB clock) ((otherUnits T (similarity s R b F) s).env (c / √s * strength) (fun x => R *ᵥ dB x) clock) := by
  have r := rescaled hs hR b h h'
  refine ⟨fun x x' hx => ?_, fun B => ?_, fun B => ?_, fun B => ?_, fun B => units_perturb hs hc hR b h h' strength dB B, rfl⟩
  · exact C97_update r hc hn hg hx
  · change FV.fin ((withMap T.D (similarity s R b F)).energy (c • B)) = .fin (c ^ 2 / s * T.D.energy B)
    rw [r.energy]
    unfold DeRham.energy
    rw [mulVec_smul, dotProduct_smul, smul_dotProduct, smul_eq_mul, smul_eq_mul]
    congr 1; ring
  · change FV.fin ((withMap T.D (similarity s R b F)).helicity (c • B)) = .fin (c ^ 2 * T.D.helicity B)
    rw [r.helicity]
    unfold DeRham.helicity DeRham.harmonicComponent DeRham.vectorPotential
    simp only [mulVec_smul, ← smul_sub, ← smul_add, dotProduct_smul, smul_dotProduct, smul_eq_mul]
    congr 1; ring
  · change FV.fin ((withMap T.D (similarity s R b F)).divergenceNorm (c • B)) = .fin (c / √(s ^ 3) * T.D.divergenceNorm B)
    rw [r.divergenceNorm]
    unfold DeRham.divergenceNorm
    rw [mulVec_smul, mulVec_smul, dotProduct_smul, smul_dotProduct, smul_smul, smul_eq_mul, Real.sqrt_mul (mul_self_nonneg c), Real.sqrt_mul_self hc.le]
    congr 1; ring

/-- **C97** a whole run, without Hessian preconditioner and regularisation, in other units of length and of the field, on a device that is turned and moved: after every number of
iterations the same steps have been accepted, the same values recorded (each in its units) and the loop has stopped or not. The tolerances must be given in the units of what they are
compared with, and both be below 1, where the residual starts. -/
theorem C97_relaxation (cfg : RelaxConfig) (ht : cfg.solverTol < 1) (ht' : c / √s * cfg.solverTol < 1) (dB : V3 → V3) (clock : Nat → ℝ) (start : ℝ) {x : T.St}
    {x' : (otherUnits T (similarity s R b F) s).St} (hx : SameLoopState (V := T.Field) c s (c ^ 2 / s ^ 3 / √s) x x') {t t' : Trace T.Field} (htr : SameTrace c s t t') (k : Nat) :
    SameRun (V := T.Field) c s (relaxAfter cfg (T.env cfg.pertStrength dB clock) start x t k)
      (relaxAfter (otherConfig c s cfg) ((otherUnits T (similarity s R b F) s).env (c / √s * cfg.pertStrength) (fun x => R *ᵥ dB x) clock) start x' t' k) :=
  run_same hc hs ht ht' (sameEnv hs hc hR b h h' hn hg cfg.pertStrength dB clock) start hx htr k

end

/-- The same stepper on a moved device; the fields of the sequence other than the map are those of `T.D`. -/
noncomputable abbrev moved (T : Stepper) (R : M33) (b : V3) (F : V3 → V3) : Stepper where
  D := { T.D with F := similarity 1 R b F }
  pinv := T.pinv
  lstsq := T.lstsq
  gamma := T.gamma
  newton := T.newton
  forceFree := T.forceFree

/-- **C97** a run on a device that is turned and moved, with the perturbation turned too: identical states and traces, for every map, stepper (also with Hessian and regularisation) and
configuration. -/
theorem C97_rigid_run {ns ps : Nat × Nat × Nat} {q : Nat} {types : String × String × String} {F : V3 → V3} {polar dirichlet : Bool} {T : Stepper} {R : M33} (hR : IsRotation R)
    (b : V3) (h : DeRham.mk? ns ps q types F polar dirichlet = .ok T.D) (cfg : RelaxConfig) (dB : V3 → V3) (clock : Nat → ℝ) (start : ℝ) (x : T.St) (t : Trace T.Field) (k : Nat) :
    DeRham.mk? ns ps q types (similarity 1 R b F) polar dirichlet = .ok (moved T R b F).D ∧
    relaxAfter cfg ((moved T R b F).env cfg.pertStrength (fun y => R *ᵥ dB y) clock) start x t k = relaxAfter cfg (T.env cfg.pertStrength dB clock) start x t k := by
  refine ⟨C97_rigid hR b h, ?_⟩
  have hF : T.D.F = F := (Admissible.metric h).2
  have e : ((moved T R b F).D.projector2 (fun y => R *ᵥ dB y) : Fin T.D.m2 → ℝ) = T.D.projector2 dB := by
    change T.D.E2 *ᵥ integrateAgainst T.D.S.getLambda2 T.D.nq 3 (fun j k => ((jacfwd (similarity 1 R b F) (T.D.x j))ᵀ *ᵥ (R *ᵥ dB (T.D.x j))) k * T.D.w j) T.D.S.L2.dims.n = _
    unfold DeRham.projector2 DeRham.twoformProjection
    congr 2
    funext j k
    rw [hF, jacfwd_similarity one_ne_zero hR, one_smul, transpose_mul, mulVec_mulVec, Matrix.mul_assoc, hR.orth, Matrix.mul_one]
  have e2 : ∀ B : T.Field, ((moved T R b F).perturb cfg.pertStrength (fun y => R *ᵥ dB y) B : T.Field) = T.perturb cfg.pertStrength dB B := fun B => by
    change B + cfg.pertStrength • ((T.D.norm2 (T.D.leray T.pinv *ᵥ (T.D.M2⁻¹ *ᵥ ((moved T R b F).D.projector2 (fun y => R *ᵥ dB y) : Fin T.D.m2 → ℝ))))⁻¹ •
      (T.D.leray T.pinv *ᵥ (T.D.M2⁻¹ *ᵥ ((moved T R b F).D.projector2 (fun y => R *ᵥ dB y) : Fin T.D.m2 → ℝ)))) = _
    rw [e]
    rfl
  have e3 : (moved T R b F).env cfg.pertStrength (fun y => R *ᵥ dB y) clock = T.env cfg.pertStrength dB clock := by
    have : (fun B : T.Field => ((moved T R b F).perturb cfg.pertStrength (fun y => R *ᵥ dB y) B : T.Field)) = fun B => T.perturb cfg.pertStrength dB B := funext e2
    change ({ upd := T.update, energy := fun B => .fin (T.D.energy B), helicity := fun B => .fin (T.D.helicity B), divergence := fun B => .fin (T.D.divergenceNorm B),
              hessian := fun B => T.D.hessian B, perturb := fun B : T.Field => ((moved T R b F).perturb cfg.pertStrength (fun y => R *ᵥ dB y) B : T.Field), clock := clock } :
      RelaxEnv T.Field (Matrix (Fin T.D.m2) (Fin T.D.m2) ℝ)) = _
    rw [this]
    rfl
  exact congrArg (fun env => relaxAfter cfg env start x t k) e3

/-- The hypotheses are met: a run on a polar sequence that is turned by a right angle, with lengths in units half as long and fields in units a third as large. -/
example : ∃ (T : Stepper) (x : T.St) (x' : (otherUnits T (similarity 2 !![0, -1, 0; 1, 0, 0; 0, 0, 1] ![1, 2, 3] fun y => y) 2).St) (t t' : Trace T.Field),
    Admissible (5, 6, 4) (3, 2, 1) 4 ("clamped", "periodic", "periodic") (fun y => y) true true T.D ∧
    Admissible (5, 6, 4) (3, 2, 1) 4 ("clamped", "periodic", "periodic") (similarity 2 !![0, -1, 0; 1, 0, 0; 0, 0, 1] ![1, 2, 3] fun y => y) true true
      (withMap T.D (similarity 2 !![0, -1, 0; 1, 0, 0; 0, 0, 1] ![1, 2, 3] fun y => y)) ∧
    T.newton = false ∧ T.gamma = 0 ∧ SameLoopState (V := T.Field) 3 2 (3 ^ 2 / 2 ^ 3 / √2) x x' ∧ SameTrace 3 2 t t' ∧ (1e-9 : ℝ) < 1 ∧ (3 : ℝ) / √2 * 1e-9 < 1 := by
  obtain ⟨D, hD⟩ := Admissible.example true true
  let T : Stepper := { D := D, pinv := 0, lstsq := fun _ v => v, gamma := 0, newton := false, forceFree := true }
  let f : T.Field := fun i => i
  have h2 : (1 : ℝ) ≤ √2 := Real.one_le_sqrt.2 (by norm_num)
  refine ⟨T, ⟨f, f, 1, 0, 0, 0, .fin 1, .fin 0, .nan⟩, ⟨(3 : ℝ) • f, (3 : ℝ) • f, 2 ^ 6 / 3 ^ 2 * 1, 3 ^ 2 / 2 ^ 4 * 0, 0, 0, .fin 1, .fin (3 ^ 2 / 2 ^ 3 / √2 * 0), .nan⟩,
    ⟨[], [], [], [], [], [], [], [], [], [], []⟩, ⟨[], [], [], [], [], [], [], [], [], [], []⟩, hD, (C97_regular_iff (by norm_num) isRotation_quarter _ hD).2 (by norm_num), rfl, rfl,
    { Bn := rfl, Bguess := rfl, dt := rfl, eta := rfl, force := rfl, velocity := rfl }, ⟨rfl, rfl, rfl, rfl, rfl, rfl, rfl, rfl, rfl, rfl, rfl⟩, by norm_num, ?_⟩
  calc (3 : ℝ) / √2 * 1e-9 ≤ 3 / 1 * 1e-9 := by gcongr
    _ < 1 := by norm_num

/-! The standard case. -/

example (polar dirichlet : Bool) := C97_projectors (s := 2) (by norm_num) isRotation_quarter ![1, 2, 3] (Case.adm polar dirichlet) ((C97_regular_iff (by norm_num) isRotation_quarter _ (Case.adm polar dirichlet)).2 (by norm_num))
example (polar dirichlet : Bool) := C97_projections (s := 2) (by norm_num) isRotation_quarter ![1, 2, 3] (Case.adm polar dirichlet) ((C97_regular_iff (by norm_num) isRotation_quarter _ (Case.adm polar dirichlet)).2 (by norm_num))

end Mrx.Props
