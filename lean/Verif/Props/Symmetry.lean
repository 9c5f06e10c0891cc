import Verif.Props.Energy
import Verif.Props.Relaxation
import Verif.Proofs.Case
import Verif.Proofs.Shift6
import Verif.Proofs.Shift7
import Verif.Proofs.Exists
import Verif.Model.Scripts
import Verif.Model.Diagnostics

/-!
# C98: toroidal symmetry is preserved
-/

set_option linter.unusedSectionVars false
set_option linter.unusedVariables false

namespace Mrx.Props
open Spec Matrix Quad Mrx.DeRham

variable {ns ps : Nat × Nat × Nat} {q : Nat} {types : String × String × String} {F : V3 → V3} {polar dirichlet : Bool} {D : DeRham}

theorem submatrix_shift {N nz m : Nat} {s : Equiv.Perm (Fin N)} (hs : ∀ i, (s i).val = shiftIndex nz m i) (A : Matrix (Fin N) (Fin N) ℝ) : A.submatrix s s = shiftMat nz m A := by
  funext i j
  unfold shiftMat
  rw [dif_pos (by rw [← hs i, ← hs j]; exact ⟨(s i).2, (s j).2⟩)]
  change A (s i) (s j) = _
  congr 1 <;> exact Fin.ext (hs _)

/-! ## Operators -/

section
variable (h : Admissible ns ps q types F polar dirichlet D) (hp : types.2.2 = "periodic") (hnt : ns.2.2 ≤ ns.2.1) {m : Nat} (hm : m < ns.2.2) {R R0 : M33}
  (hs : IsSymmetric F ((m : ℝ) / (ns.2.2 : ℝ)) R) (h0 : IsSymmetric F 1 R0)
include h hp hnt hm hs h0

/-- **C98** on a device that a rigid motion carries to itself when the toroidal coordinate advances by `m` cells, every operator the sequence assembles commutes with moving the
coefficients by `m` cells: mass matrices, strong and weak derivatives, Laplacians, the projections between spaces and the Leray projection. -/
theorem C98_operators : CommutesWithShift ns.2.2 m D.M0 ∧ CommutesWithShift ns.2.2 m D.M1 ∧ CommutesWithShift ns.2.2 m D.M2 ∧ CommutesWithShift ns.2.2 m D.M3 ∧
    CommutesWithShift ns.2.2 m D.strongGrad ∧ CommutesWithShift ns.2.2 m D.strongCurl ∧ CommutesWithShift ns.2.2 m D.strongDiv ∧
    CommutesWithShift ns.2.2 m D.weakDiv ∧ CommutesWithShift ns.2.2 m D.weakCurl ∧ CommutesWithShift ns.2.2 m D.weakGrad ∧
    CommutesWithShift ns.2.2 m D.dd0 ∧ CommutesWithShift ns.2.2 m D.dd1 ∧ CommutesWithShift ns.2.2 m D.dd2 ∧ CommutesWithShift ns.2.2 m D.dd3 ∧
    CommutesWithShift ns.2.2 m D.P12 ∧ CommutesWithShift ns.2.2 m D.P03 ∧ ∀ X, IsPinv D.dd3 X → CommutesWithShift ns.2.2 m (D.leray X) := by
  obtain ⟨σ, c0, c1, c2, c3, -⟩ := h.sym hp hnt hm hs h0
  have c : ∀ {a b : Nat} {s : Equiv.Perm (Fin a)} {s' : Equiv.Perm (Fin b)} {A : Matrix (Fin a) (Fin b) ℝ}, (∀ v, v ∘ s = shiftVec ns.2.2 m v) → (∀ v, v ∘ s' = shiftVec ns.2.2 m v) →
      Inv s s' A → CommutesWithShift ns.2.2 m A := fun e e' i v => by rw [← e, ← e', i.mulVec]
  exact ⟨c c0 c0 σ.M0, c c1 c1 σ.M1, c c2 c2 σ.M2, c c3 c3 σ.M3, c c1 c0 σ.strongGrad, c c2 c1 σ.strongCurl, c c3 c2 σ.strongDiv, c c0 c1 σ.weakDiv, c c1 c2 σ.weakCurl,
    c c2 c3 σ.weakGrad, c c0 c0 σ.dd0, c c1 c1 σ.dd1, c c2 c2 σ.dd2, c c3 c3 σ.dd3, c c1 c2 σ.P12, c c0 c3 σ.P03, fun X hX => c c2 c2 (σ.leray hX)⟩

/-- **C98** the products of two fields move with the fields, for every supported pair of degrees; energy, helicity, norm and divergence norm of the moved field are those of the field. -/
theorem C98_nonlinear (B : Fin D.m2 → ℝ) (v w : Fin D.m1 → ℝ) :
    D.P1x1to2 (shiftVec ns.2.2 m v) (shiftVec ns.2.2 m w) = shiftVec ns.2.2 m (D.P1x1to2 v w) ∧
    D.P2x1to1 (shiftVec ns.2.2 m B) (shiftVec ns.2.2 m w) = shiftVec ns.2.2 m (D.P2x1to1 B w) ∧
    D.energy (shiftVec ns.2.2 m B) = D.energy B ∧ D.helicity (shiftVec ns.2.2 m B) = D.helicity B ∧ D.norm2 (shiftVec ns.2.2 m B) = D.norm2 B ∧
    D.divergenceNorm (shiftVec ns.2.2 m B) = D.divergenceNorm B ∧ D.hessian (shiftVec ns.2.2 m B) = shiftMat ns.2.2 m (D.hessian B) := by
  obtain ⟨σ, c0, c1, c2, c3, v0, v1, v2, v3, -⟩ := h.sym hp hnt hm hs h0
  refine ⟨?_, ?_, ?_, ?_, ?_, ?_, ?_⟩
  · rw [← c1, ← c1, σ.P1x1to2, c2]
  · rw [← c2, ← c1, σ.P2x1to1, c1]
  · rw [← c2, σ.energy]
  · rw [← c2, σ.helicity]
  · rw [← c2, σ.norm2]
  · rw [← c2, σ.divergenceNorm]
  · rw [← c2, σ.hessian]
    exact submatrix_shift v2 _

/-- **C98** force and pressure move with the field. -/
theorem C98_pressure (B : Fin D.m2 → ℝ) : D.lorentz (shiftVec ns.2.2 m B) = shiftVec ns.2.2 m (D.lorentz B) ∧ D.pressure (shiftVec ns.2.2 m B) = shiftVec ns.2.2 m (D.pressure B) := by
  obtain ⟨σ, c0, c1, c2, c3, -⟩ := h.sym hp hnt hm hs h0
  have e : D.lorentz (B ∘ σ.s2) = D.lorentz B ∘ σ.s2 := by
    unfold DeRham.lorentz
    rw [σ.weakCurl.mulVec, σ.P12.mulVec, σ.P1x1to2, σ.M2.inv.mulVec]
  rw [← c2, ← c2, ← c0]
  refine ⟨e, ?_⟩
  unfold DeRham.pressure
  rw [e, σ.strongDiv.mulVec, σ.P03.mulVec, σ.dd0.inv.mulVec]
  rfl

/-- **C98** projections of symmetric fields and scalars have coefficients that do not change when moved by `m` cells. -/
theorem C98_projected {v : V3 → V3} (hv : IsSymmetricField v ((m : ℝ) / (ns.2.2 : ℝ)) R) (hv0 : IsSymmetricField v 1 R0) {f : V3 → Fin 1 → ℝ}
    (hf : IsSymmetricScalar f ((m : ℝ) / (ns.2.2 : ℝ))) (hf0 : IsSymmetricScalar f 1) :
    shiftVec ns.2.2 m (D.projector0 f) = D.projector0 f ∧ shiftVec ns.2.2 m (D.projector1 v) = D.projector1 v ∧ shiftVec ns.2.2 m (D.projector2 v) = D.projector2 v ∧
      shiftVec ns.2.2 m (D.projector3 f) = D.projector3 f := h.projector_shift hp hm hs h0 hnt hv hv0 hf hf0

theorem divfree_symmetric {X : Matrix (Fin D.m3) (Fin D.m3) ℝ} (hX : IsPinv D.dd3 X) {v : V3 → V3} (hv : IsSymmetricField v ((m : ℝ) / (ns.2.2 : ℝ)) R)
    (hv0 : IsSymmetricField v 1 R0) : shiftVec ns.2.2 m (D.normalize (D.divfreeProjection X v)) = D.normalize (D.divfreeProjection X v) := by
  obtain ⟨σ, c0, c1, c2, c3, -⟩ := h.sym hp hnt hm hs h0
  have e := (h.projector_shift hp hm hs h0 hnt hv hv0 (f := fun _ => 0) (fun _ => rfl) (fun _ => rfl)).2.2.1
  rw [← c2] at e ⊢
  have : D.divfreeProjection X v ∘ σ.s2 = D.divfreeProjection X v := by
    unfold DeRham.divfreeProjection
    rw [← (σ.leray hX).mulVec, ← σ.M2.inv.mulVec, e]
  funext i
  have ei := congrFun this i
  simp only [Function.comp] at ei
  simp [DeRham.normalize, ei]

/-- **C98** the initial fields of the scripts are symmetric when the analytic fields (and the perturbation, if it is added at the start) are. -/
theorem C98_start {X : Matrix (Fin D.m3) (Fin D.m3) ℝ} (hX : IsPinv D.dd3 X) (applyPertAfter : Int) (strength : ℝ) {B dB : V3 → V3}
    (hv : IsSymmetricField B ((m : ℝ) / (ns.2.2 : ℝ)) R) (hv0 : IsSymmetricField B 1 R0)
    (hd : applyPertAfter = 0 ∧ 0 < strength → IsSymmetricField dB ((m : ℝ) / (ns.2.2 : ℝ)) R ∧ IsSymmetricField dB 1 R0) :
    shiftVec ns.2.2 m (D.projectedStart X applyPertAfter strength B dB) = D.projectedStart X applyPertAfter strength B dB := by
  obtain ⟨σ, c0, c1, c2, c3, -⟩ := h.sym hp hnt hm hs h0
  have e1 := divfree_symmetric h hp hnt hm hs h0 hX hv hv0
  unfold DeRham.projectedStart
  simp only []
  split
  next hc =>
    obtain ⟨d1, d2⟩ := hd hc
    have e2 := divfree_symmetric h hp hnt hm hs h0 hX d1 d2
    rw [← c2] at e1 e2 ⊢
    funext i
    have a := congrFun e1 i
    have b := congrFun e2 i
    simp only [Function.comp] at a b
    simp [a, b]
  next => exact e1

end

/-! ## Fields -/

section
variable (h : Admissible ns ps q types F polar dirichlet D) (hp : types.2.2 = "periodic") {m : Nat} (hm : m < ns.2.2) {R R0 : M33}
include h hp hm

/-- **C98** moving the coefficients moves the field: for a symmetric device, the physical fields of `u` at the point `m` cells further (modulo one turn) are the fields of the moved coefficients,
turned with the device. `a` is the advance, `m / nz` or, past the end of the interval, `m / nz - 1`. -/
theorem C98_fields {a : ℝ} (ha : a = (m : ℝ) / ns.2.2 ∨ a = (m : ℝ) / ns.2.2 - 1) {Q : M33} (hs : IsSymmetric F a Q) {y : V3} (h0 : 0 ≤ y 2) (h1 : y 2 < 1) (h0' : 0 ≤ y 2 + a)
    (h1' : y 2 + a < 1) : (∀ u, D.phys0 u ![y 0, y 1, y 2 + a] = D.phys0 (shiftVec ns.2.2 m u) y) ∧ (∀ u, D.phys1 u ![y 0, y 1, y 2 + a] = Q *ᵥ D.phys1 (shiftVec ns.2.2 m u) y) ∧
    (∀ u, D.phys2 u ![y 0, y 1, y 2 + a] = Q *ᵥ D.phys2 (shiftVec ns.2.2 m u) y) ∧ (∀ u, D.phys3 u ![y 0, y 1, y 2 + a] = D.phys3 (shiftVec ns.2.2 m u) y) := by
  obtain ⟨-, hF⟩ := Admissible.metric h.built
  obtain ⟨f0, f1, f2, f3⟩ := h.forms_shift hp hm (y := y) (y' := ![y 0, y 1, y 2 + a]) rfl rfl h0 h1 h0' h1' (by
    rcases ha with rfl | rfl
    · left; rfl
    · right; exact (add_sub_assoc _ _ _).symm)
  have ej := jacfwd_shift hs y
  have ed : (jacfwd F ![y 0, y 1, y 2 + a]).det = (jacfwd F y).det := by rw [ej, det_mul, hs.1.det, one_mul]
  refine ⟨fun u => ?_, fun u => ?_, fun u => ?_, fun u => ?_⟩
  · unfold DeRham.phys0 Pushforward.scalar
    simp only [if_true, Option.getD_some]
    rw [f0]
  · unfold DeRham.phys1 Pushforward.vector
    simp only [if_true, Option.getD_some]
    rw [hF, f1, ej, inv33_rotation hs.1, transpose_mul, transpose_transpose, ← mulVec_mulVec]
  · unfold DeRham.phys2 Pushforward.vector
    simp only [show ¬ ((2 : Int) = 1) by decide, if_false, if_true, Option.getD_some]
    rw [hF, f2, ed, ej, ← mulVec_mulVec]
    generalize jacfwd F y *ᵥ D.form2 (shiftVec ns.2.2 m u) y = v
    funext c
    simp only [mulVec, dotProduct, Finset.sum_div]
    refine Finset.sum_congr rfl fun k _ => ?_
    ring
  · unfold DeRham.phys3 Pushforward.scalar
    simp only [show ¬ ((3 : Int) = 0) by decide, if_false, if_true, Option.getD_some]
    rw [hF, f3, ed]

end

/-! ## Runs -/

section
variable {T : Stepper} (h : Admissible ns ps q types F polar dirichlet T.D) (hp : types.2.2 = "periodic") (hnt : ns.2.2 ≤ ns.2.1) {m : Nat} (hm : m < ns.2.2) {R R0 : M33}
  (hs : IsSymmetric F ((m : ℝ) / (ns.2.2 : ℝ)) R) (h0 : IsSymmetric F 1 R0) (hX : IsPinv T.D.dd3 T.pinv) (hL : T.newton = true → ∀ A b, IsLstsq A b (T.lstsq A b))
  {cfg : RelaxConfig} (strength : ℝ) {dB : V3 → V3}
  (hd : 0 < cfg.pertStrength → IsSymmetricField dB ((m : ℝ) / (ns.2.2 : ℝ)) R ∧ IsSymmetricField dB 1 R0) (clock : Nat → ℝ) (start : ℝ)
include h hp hnt hm hs h0 hX hL hd

/-- **C98** a run from the moved state is the moved run: after every number of iterations the fields are those of the original run moved by `m` cells, and every recorded number (forces, energies,
helicities, divergences, velocities, step sizes, iteration counts) is the same. -/
theorem C98_run (s : T.St) (t : Trace T.Field) (k : Nat) :
    (relaxAfter cfg (T.env strength dB clock) start (shiftState ns.2.2 m s) (shiftTrace ns.2.2 m t) k).state =
      shiftState ns.2.2 m (relaxAfter cfg (T.env strength dB clock) start s t k).state ∧
    (relaxAfter cfg (T.env strength dB clock) start (shiftState ns.2.2 m s) (shiftTrace ns.2.2 m t) k).trace =
      shiftTrace ns.2.2 m (relaxAfter cfg (T.env strength dB clock) start s t k).trace ∧
    (relaxAfter cfg (T.env strength dB clock) start (shiftState ns.2.2 m s) (shiftTrace ns.2.2 m t) k).stopped = (relaxAfter cfg (T.env strength dB clock) start s t k).stopped := by
  obtain ⟨σ, c0, c1, c2, c3, v0, v1, v2, v3, -⟩ := h.sym hp hnt hm hs h0
  have eφ : (fun B : T.Field => B ∘ σ.s2) = shiftVec ns.2.2 m := funext c2
  have eψ : shiftHessian σ.s2 = shiftMat ns.2.2 m := funext (submatrix_shift v2)
  have es : ∀ x : T.St, x.map (fun B => B ∘ σ.s2) (shiftHessian σ.s2) = shiftState ns.2.2 m x := fun x => by rw [eφ, eψ]; rfl
  have et : ∀ x : Trace T.Field, x.map (fun B => B ∘ σ.s2) = shiftTrace ns.2.2 m x := fun x => by rw [eφ]; rfl
  have hc := Stepper.commutes σ hX hL (cfg := cfg) strength (dB := dB) (fun hp' => by
    obtain ⟨d1, d2⟩ := hd hp'
    rw [c2]
    exact (h.projector_shift hp hm hs h0 hnt d1 d2 (f := fun _ => 0) (fun _ => rfl) (fun _ => rfl)).2.2.1) clock
  have e := relax_map hc start s t k
  rw [es, et] at e
  rw [e]
  exact ⟨es _, et _, rfl⟩

/-- **C98** a symmetric run stays symmetric: if the initial field, guess and Hessian do not change when moved by `m` cells, neither does the field after any number of iterations, nor the guess,
nor any recorded field. -/
theorem C98_stays_symmetric (s : T.St) (t : Trace T.Field) (hB : shiftVec ns.2.2 m s.Bn = s.Bn) (hG : shiftVec ns.2.2 m s.Bguess = s.Bguess)
    (hH : shiftMat ns.2.2 m s.hessian = s.hessian) (ht : ∀ B ∈ t.Bfields, shiftVec ns.2.2 m B = B) (k : Nat) :
    let l := relaxAfter cfg (T.env strength dB clock) start s t k
    shiftVec ns.2.2 m l.state.Bn = l.state.Bn ∧ shiftVec ns.2.2 m l.state.Bguess = l.state.Bguess ∧ shiftMat ns.2.2 m l.state.hessian = l.state.hessian ∧
      ∀ B ∈ l.trace.Bfields, shiftVec ns.2.2 m B = B := by
  have e1 : shiftState ns.2.2 m s = s := by unfold shiftState; rw [hB, hG, hH]
  have e2 : shiftTrace ns.2.2 m t = t := by
    unfold shiftTrace
    rw [List.map_congr_left ht, List.map_id']
  obtain ⟨r1, r2, -⟩ := C98_run h hp hnt hm hs h0 hX hL strength hd clock start s t k
  rw [e1, e2] at r1 r2
  intro l
  refine ⟨(congrArg State.Bn r1).symm, (congrArg State.Bguess r1).symm, (congrArg State.hessian r1).symm, fun B hB' => ?_⟩
  have e3 : l.trace.Bfields.map (shiftVec ns.2.2 m) = l.trace.Bfields := (congrArg Trace.Bfields r2).symm
  have : ∀ L : List T.Field, L.map (shiftVec ns.2.2 m) = L → ∀ B ∈ L, shiftVec ns.2.2 m B = B := by
    intro L hL'
    induction L with
    | nil => intro B hB; cases hB
    | cons a L ih =>
      rw [List.map_cons, List.cons.injEq] at hL'
      intro B hB
      rcases List.mem_cons.1 hB with rfl | hB
      · exact hL'.1
      · exact ih hL'.2 B hB
  exact this _ e3 B hB'

/-- **C98** in particular the run of the scripts: from the projection of a symmetric field, every field of the run is symmetric. -/
theorem C98_script {B : V3 → V3} (hv : IsSymmetricField B ((m : ℝ) / (ns.2.2 : ℝ)) R) (hv0 : IsSymmetricField B 1 R0) (dt eta : ℝ) (k : Nat) :
    let l := relaxAfter cfg (T.env strength dB clock) start (T.initState (T.D.projectedStart T.pinv cfg.applyPertAfter cfg.pertStrength B dB) dt eta) (emptyTrace _) k
    shiftVec ns.2.2 m l.state.Bn = l.state.Bn ∧ ∀ B ∈ l.trace.Bfields, shiftVec ns.2.2 m B = B := by
  have e := C98_start h hp hnt hm hs h0 hX cfg.applyPertAfter cfg.pertStrength hv hv0 (dB := dB) (fun hc => hd hc.2)
  have hH : shiftMat ns.2.2 m T.D.M2 = T.D.M2 := by
    obtain ⟨σ, c0, c1, c2, c3, v0, v1, v2, v3, -⟩ := h.sym hp hnt hm hs h0
    rw [← submatrix_shift v2]
    exact σ.M2
  have r := C98_stays_symmetric h hp hnt hm hs h0 hX hL strength hd clock start (T.initState (T.D.projectedStart T.pinv cfg.applyPertAfter cfg.pertStrength B dB) dt eta)
    (emptyTrace _) e e hH (fun B hB => absurd hB (by simp [emptyTrace])) k
  exact ⟨r.1, r.2.2.2⟩

end

/-! ## The standard case: the sheared map is carried to itself by every toroidal translation -/

theorem Case.symmetric (a : ℝ) : IsSymmetric Case.map a 1 := by
  refine ⟨⟨by simp, by simp⟩, ![0, 0, a], fun x => ?_⟩
  rw [one_mulVec]
  funext i
  fin_cases i <;> simp [Case.map, mulVec, dotProduct, Fin.sum_univ_three]

theorem Case.symmetricField (v : V3) (a : ℝ) : IsSymmetricField (fun _ => v) a 1 := fun x => by rw [one_mulVec]

example (polar dirichlet : Bool) := C98_operators (Case.adm polar dirichlet) rfl (by norm_num) (m := 1) (by norm_num) (Case.symmetric _) (Case.symmetric _)
example (polar dirichlet : Bool) := C98_nonlinear (Case.adm polar dirichlet) rfl (by norm_num) (m := 1) (by norm_num) (Case.symmetric _) (Case.symmetric _)
example (polar dirichlet : Bool) := C98_pressure (Case.adm polar dirichlet) rfl (by norm_num) (m := 1) (by norm_num) (Case.symmetric _) (Case.symmetric _)
example (polar dirichlet : Bool) := C98_projected (Case.adm polar dirichlet) rfl (by norm_num) (m := 1) (by norm_num) (Case.symmetric _) (Case.symmetric _) (Case.symmetricField ![1, 2, 3] _) (Case.symmetricField ![1, 2, 3] _)
  (f := fun x => ![x 0]) (fun x => by simp) (fun x => by simp)
example (polar dirichlet : Bool) := C98_start (Case.adm polar dirichlet) rfl (by norm_num) (m := 1) (by norm_num) (Case.symmetric _) (Case.symmetric _) (Case.pinv_spec _) 0 (1 / 2)
  (Case.symmetricField ![1, 2, 3] _) (Case.symmetricField ![1, 2, 3] _) fun _ => ⟨Case.symmetricField ![0, 0, 1] _, Case.symmetricField ![0, 0, 1] _⟩
example (polar dirichlet : Bool) := C98_fields (Case.adm polar dirichlet) rfl (m := 1) (by norm_num) (Or.inl rfl) (Case.symmetric _) (y := ![1 / 2, 0, 1 / 8]) (by simp) (by simp; norm_num) (by simp; norm_num)
  (by simp; norm_num)
example (polar : Bool) (clock start) := C98_run (Case.T_adm polar 1 false false) rfl (by norm_num) (m := 1) (by norm_num) (Case.symmetric _) (Case.symmetric _) (Case.T_pinv polar 1 false false)
  (fun h => absurd h (by simp [Case.T])) (cfg := caseCfg 0) (1 / 2) (dB := fun _ => ![0, 0, 1]) (fun _ => ⟨Case.symmetricField _ _, Case.symmetricField _ _⟩) clock start
  (Case.s polar 1 false false 1)
/-- The state a script starts from also meets the hypotheses of `C98_stays_symmetric`: that is how the following is proved. -/
example (polar : Bool) (clock start) := C98_script (Case.T_adm polar 1 false false) rfl (by norm_num) (m := 1) (by norm_num) (Case.symmetric _) (Case.symmetric _) (Case.T_pinv polar 1 false false)
  (fun h => absurd h (by simp [Case.T])) (cfg := caseCfg 0) (1 / 2) (dB := fun _ => ![0, 0, 1]) (fun _ => ⟨Case.symmetricField _ _, Case.symmetricField _ _⟩) clock start
  (B := fun _ => ![1, 2, 3]) (Case.symmetricField _ _) (Case.symmetricField _ _) 1 0

end Mrx.Props
