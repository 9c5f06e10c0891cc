import Verif.Model.Demo
import Verif.Props.Averages
import Verif.Props.Energy
import Verif.Props.Figures2
import Verif.Props.VectorPoisson

/-!
# C122 The demo notebook

The relaxation loops of `MRX_tokamak_demo.ipynb`, the traces it plots and the diagnostics it prints.
-/

set_option linter.unusedSectionVars false
set_option linter.unusedVariables false

namespace Mrx.Props
open Finset Spec Matrix

/-! ## The loops -/

section
variable {V H : Type} (step : State V H → State V H) (tol : ℝ) (hel : V → FV)

theorem demo_failed_iff (s : State V H) : ¬ Demo.failed tol s ↔ ∃ x, s.picardResiduum = .fin x ∧ x ≤ tol := by
  unfold Demo.failed
  cases h : s.picardResiduum <;> simp [FV.gt, FV.lt, FV.isfinite]

/-- **C122** the body of the Python loop and the body given to `lax.scan` do the same to every state, whatever `step` returns (NaN and infinities included). -/
theorem C122_same_loops : Demo.bodyFn step tol = Demo.loopBody step tol := by
  funext s
  unfold Demo.bodyFn Demo.loopBody Demo.onFail Demo.onSuccess
  dsimp only
  by_cases h : Demo.failed tol (step s)
  · rw [if_pos h, if_pos h]
  · rw [if_neg h, if_neg h]

/-- **C122** one iteration: if the residual is a number at most the tolerance, the field becomes the new one and the time step grows or shrinks by 1.01, according to the number of Picard iterations;
otherwise (NaN and infinities included) the field stays, the guess is reset to it and the time step is halved. Resistivity and Hessian stay; force, velocity and residual are those of the step, accepted or not. -/
theorem C122_iteration (s : State V H) :
    let r := step s
    let s' := Demo.loopBody step tol s
    ((∃ x, r.picardResiduum = .fin x ∧ x ≤ tol) → s'.Bn = r.Bguess ∧ s'.Bguess = r.Bguess ∧
      (r.picardIterations < 4 → s'.dt = r.dt * (101 / 100)) ∧ (4 ≤ r.picardIterations → s'.dt = r.dt / (101 / 100))) ∧
    (¬ (∃ x, r.picardResiduum = .fin x ∧ x ≤ tol) → s'.Bn = r.Bn ∧ s'.Bguess = r.Bn ∧ s'.dt = r.dt / 2) ∧
    s'.eta = r.eta ∧ s'.hessian = r.hessian ∧ s'.forceNorm = r.forceNorm ∧ s'.velocityNorm = r.velocityNorm ∧ s'.picardResiduum = r.picardResiduum ∧
    s'.picardIterations = r.picardIterations := by
  intro r s'
  classical
  rw [← demo_failed_iff]
  have e : s' = if Demo.failed tol r then (r.updateDt (r.dt / 2)).updateBguess r.Bn
      else (r.updateBn r.Bguess).updateDt (if r.picardIterations < 4 then r.dt * 1.01 else r.dt / 1.01) := rfl
  rw [e]
  refine ⟨fun a => ?_, fun a => ?_, ?_⟩
  · rw [if_neg a]
    refine ⟨rfl, rfl, fun b => ?_, fun b => ?_⟩
    · simp only [State.updateDt, State.updateBn, if_pos b]; norm_num
    · simp only [State.updateDt, State.updateBn, if_neg (not_lt.mpr b)]; norm_num
  · rw [if_pos (not_not.mp a)]
    exact ⟨rfl, rfl, rfl⟩
  · split_ifs <;> exact ⟨rfl, rfl, rfl, rfl, rfl, rfl⟩

theorem demo_outerLoop (body : State V H → State V H) (inner : Nat) (offset : Int) (outer : Nat) (v : Demo.Vars V H) :
    Demo.outerLoop body hel inner offset outer v = ⟨body^[inner * outer] v.state, v.force ++ (List.range outer).map (fun i => (body^[inner * (i + 1)] v.state).forceNorm),
      v.helicity ++ (List.range outer).map (fun i => hel (body^[inner * (i + 1)] v.state).Bn), v.printed ++ (List.range outer).map fun (i : Nat) => ((i : Int) + offset) * inner⟩ := by
  induction outer with
  | zero => simp [Demo.outerLoop]
  | succ n ih =>
    unfold Demo.outerLoop at ih ⊢
    rw [List.range_succ, List.foldl_append, ih]
    have e : body^[inner * (n + 1)] v.state = body^[inner] (body^[inner * n] v.state) := by
      rw [← Function.iterate_add_apply]; congr 1; ring
    simp only [List.foldl_cons, List.foldl_nil, Demo.outerPass, List.map_append, List.map_cons, List.map_nil, List.append_assoc, e]

theorem demo_twoLoops (body : State V H → State V H) (inner : Nat) (o1 o2 : Int) (m1 m2 : Nat) (v : Demo.Vars V H) :
    let w := Demo.outerLoop body hel inner o2 m2 (Demo.outerLoop body hel inner o1 m1 v)
    w.state = body^[inner * (m1 + m2)] v.state ∧ w.force = v.force ++ (List.range (m1 + m2)).map (fun i => (body^[inner * (i + 1)] v.state).forceNorm) ∧
    w.helicity = v.helicity ++ (List.range (m1 + m2)).map (fun i => hel (body^[inner * (i + 1)] v.state).Bn) ∧
    w.printed = v.printed ++ ((List.range m1).map (fun (i : Nat) => ((i : Int) + o1) * inner) ++ (List.range m2).map fun (i : Nat) => ((i : Int) + o2) * inner) := by
  intro w
  have it : ∀ n, body^[inner * n] (body^[inner * m1] v.state) = body^[inner * (m1 + n)] v.state := fun n => by
    rw [← Function.iterate_add_apply]; congr 1; ring
  have e : w = Demo.outerLoop body hel inner o2 m2 (Demo.outerLoop body hel inner o1 m1 v) := rfl
  rw [e, demo_outerLoop, demo_outerLoop]
  simp only [it, List.range_add, List.map_append, List.map_map, List.append_assoc, Function.comp_def, Nat.add_assoc, and_self]

/-- **C122** the whole relaxation of the first equilibrium: 2000 iterations, no matter that half of them are in a Python loop and half in a scan. The traces have 21 entries: those of the dry run, then
the force norm of the state and the helicity of the field after 100, 200, ..., 2000 iterations, which are the numbers printed. -/
theorem C122_tokamak (s : State V H) :
    let v := Demo.relaxTokamak step tol hel s
    let after := fun n => (Demo.loopBody step tol)^[n] s
    v.state = after 2000 ∧ v.force = (step s).forceNorm :: (List.range 20).map (fun i => (after (100 * (i + 1))).forceNorm) ∧
    v.helicity = hel (step s).Bn :: (List.range 20).map (fun i => hel (after (100 * (i + 1))).Bn) ∧ v.printed = (List.range 20).map fun (i : Nat) => 100 * ((i : Int) + 1) := by
  intro v after
  have e : v = Demo.outerLoop (Demo.loopBody step tol) hel 100 11 10 (Demo.outerLoop (Demo.loopBody step tol) hel 100 1 10 (Demo.start step hel s)) := by
    show Demo.relaxTokamak _ _ _ _ = _
    rw [Demo.relaxTokamak, C122_same_loops]
  obtain ⟨a, b, c, d⟩ := demo_twoLoops hel (Demo.loopBody step tol) 100 1 11 10 10 (Demo.start step hel s)
  rw [← e] at a b c d
  refine ⟨a, b, c, d.trans ?_⟩
  show [] ++ _ = _
  decide

/-- **C122** (finding) the relaxation of the GVEC equilibrium: 2500 iterations, 26 entries. Every printed number is 100 too small: it counts the iterations before the pass, not those done. -/
theorem C122_gvec (s : State V H) :
    let v := Demo.relaxGvec step tol hel s
    let after := fun n => (Demo.loopBody step tol)^[n] s
    v.state = after 2500 ∧ v.force = (step s).forceNorm :: (List.range 25).map (fun i => (after (100 * (i + 1))).forceNorm) ∧
    v.helicity = hel (step s).Bn :: (List.range 25).map (fun i => hel (after (100 * (i + 1))).Bn) ∧
    v.printed = (List.range 25).map fun (i : Nat) => 100 * ((i : Int) + 1) - 100 := by
  intro v after
  have e : v = Demo.outerLoop (Demo.loopBody step tol) hel 100 0 25 (Demo.start step hel s) := by
    show Demo.relaxGvec _ _ _ _ = _
    rw [Demo.relaxGvec, C122_same_loops]
  have f := demo_outerLoop hel (Demo.loopBody step tol) 100 0 25 (Demo.start step hel s)
  rw [← e] at f
  obtain ⟨a, b, c, d⟩ := (Demo.Vars.mk.injEq _ _ _ _ _ _ _ _).mp f
  refine ⟨a, b, c, d.trans ?_⟩
  show [] ++ _ = _
  decide

/-- **C122** the time step after `n` iterations is the first one times a power of 1.01 over powers of 1.01 and 2, `n` factors in all; it stays positive. The resistivity never changes. -/
theorem C122_time_step (hs : ∀ s : State V H, (step s).dt = s.dt ∧ (step s).eta = s.eta) (s : State V H) (n : Nat) :
    let s' := (Demo.loopBody step tol)^[n] s
    (∃ a b c : Nat, a + b + c = n ∧ s'.dt = s.dt * (101 / 100) ^ a / (101 / 100) ^ b / 2 ^ c) ∧ (0 < s.dt → 0 < s'.dt) ∧ s'.eta = s.eta := by
  have key : (∃ a b c : Nat, a + b + c = n ∧ ((Demo.loopBody step tol)^[n] s).dt = s.dt * (101 / 100) ^ a / (101 / 100) ^ b / 2 ^ c) ∧
      ((Demo.loopBody step tol)^[n] s).eta = s.eta := by
    induction n with
    | zero => exact ⟨⟨0, 0, 0, rfl, by simp⟩, rfl⟩
    | succ n ih =>
      obtain ⟨⟨a, b, c, e, d⟩, f⟩ := ih
      rw [Function.iterate_succ_apply']
      obtain ⟨p, q, r, -⟩ := C122_iteration step tol ((Demo.loopBody step tol)^[n] s)
      obtain ⟨u, w⟩ := hs ((Demo.loopBody step tol)^[n] s)
      refine ⟨?_, by rw [r, w, f]⟩
      by_cases hx : ∃ x, (step ((Demo.loopBody step tol)^[n] s)).picardResiduum = .fin x ∧ x ≤ tol
      · obtain ⟨-, -, g1, g2⟩ := p hx
        rcases lt_or_ge (step ((Demo.loopBody step tol)^[n] s)).picardIterations 4 with h4 | h4
        · exact ⟨a + 1, b, c, by omega, by rw [g1 h4, u, d]; field_simp; ring⟩
        · exact ⟨a, b + 1, c, by omega, by rw [g2 h4, u, d]; field_simp; ring⟩
      · exact ⟨a, b, c + 1, by omega, by rw [(q hx).2.2, u, d]; field_simp; ring⟩
  refine ⟨key.1, fun h0 => ?_, key.2⟩
  obtain ⟨a, b, c, -, d⟩ := key.1
  rw [d]
  positivity

end

section
variable {V H : Type} (env : RelaxEnv V H) (tol : ℝ) (maxit : Int) (iterations saveEvery : Nat) (forceTol start : ℝ)

/-- The iteration of the notebook with the Picard solver of the library. -/
noncomputable def demoIteration (s : State V H) : State V H := Demo.loopBody (Mrx.step env.upd tol maxit) tol s

/-- **C122** ("`run_relaxation_loop` is also available for this purpose") one iteration of the library with `dt_factor=1.01`, `solver_critit=4`, no Hessian and no perturbation, from the same state, does
the same as one of the notebook in everything but the time step; the states agree exactly if the step is rejected or took fewer than four Picard iterations (or the time step is 0). In the
remaining case the library divides the time step by 1.01 twice. -/
theorem C122_library (i : Nat) (l : LoopState V H) (hl : l.stopped = false) :
    let cfg := Demo.libraryConfig tol maxit iterations forceTol saveEvery
    let a := (relaxIteration cfg env start i l).state
    let b := demoIteration env tol maxit l.state
    a = { b with dt := a.dt } ∧
    (a = b ↔ rejected cfg (env.step cfg l.state) ∨ (env.step cfg l.state).picardIterations < 4 ∨ l.state.dt = 0) ∧
    (¬ a = b → b.dt = a.dt * (101 / 100)) := by
  intro cfg a b
  have fr := (step_frame cfg env l.state).2.1
  classical
  obtain ⟨r, hr⟩ : ∃ r, r = env.step cfg l.state := ⟨_, rfl⟩
  have hb : b = if Demo.failed tol r then (r.updateDt (r.dt / 2)).updateBguess r.Bn
      else (r.updateBn r.Bguess).updateDt (if r.picardIterations < 4 then r.dt * 1.01 else r.dt / 1.01) := by rw [hr]; rfl
  rw [← hr] at fr ⊢
  have hf : rejected cfg r ↔ Demo.failed tol r := Iff.rfl
  by_cases h : Demo.failed tol r
  · have ha : a = (r.updateDt (r.dt / 2)).updateBguess r.Bn := by
      show (relaxIteration cfg env start i l).state = _
      unfold relaxIteration
      rw [if_neg (by simp [hl])]
      dsimp only
      rw [← hr, if_pos (hf.mpr h)]
      rfl
    rw [if_pos h] at hb
    exact ⟨by rw [ha, hb], ⟨fun _ => Or.inl (hf.mpr h), fun _ => by rw [ha, hb]⟩, fun n => absurd (by rw [ha, hb]) n⟩
  · have ha : a = (r.updateBn r.Bguess).updateDt (if r.picardIterations < 4 then r.dt * 1.01 else r.dt / 1.01 ^ 2) := by
      show (relaxIteration cfg env start i l).state = _
      unfold relaxIteration
      rw [if_neg (by simp [hl])]
      dsimp only
      rw [← hr, if_neg (fun c => h (hf.mp c))]
      unfold acceptState
      simp [cfg, Demo.libraryConfig]
      rfl
    rw [if_neg h] at hb
    refine ⟨by rw [ha, hb]; rfl, ?_, ?_⟩
    · rw [ha, hb]
      constructor
      · intro e
        have e' := congrArg State.dt e
        by_cases h4 : r.picardIterations < 4
        · exact Or.inr (Or.inl h4)
        · simp only [State.updateDt, if_neg h4] at e'
          refine Or.inr (Or.inr ?_)
          rw [← fr]
          norm_num at e'
          linarith
      · rintro (c | c | c)
        · exact absurd (hf.mp c) h
        · rw [if_pos c, if_pos c]
        · rw [← fr] at c
          rw [c]
          simp
    · intro n
      rw [ha, hb] at n ⊢
      by_cases h4 : r.picardIterations < 4
      · exact absurd (by rw [if_pos h4, if_pos h4]) n
      · simp only [State.updateDt, if_neg h4]
        norm_num
        ring

/-- **C122** expected but false: that the plotted force norms belong to fields the relaxation has accepted. -/
def C122_force_statement : Prop := ∀ (V H : Type) (upd : State V H → Update V) (tol : ℝ) (maxit : Int) (s : State V H), tol < 1 → 0 < maxit → ∀ n : Nat, 0 < n →
  let body := Demo.loopBody (Mrx.step upd tol maxit) tol
  ∃ x : ℝ, (body^[100 * n] s).picardResiduum = .fin x ∧ x ≤ tol

/-- **C122** (finding) the force norm in the trace is that of the last step, even if that step was rejected: with a solver that never converges all the entries belong to rejected fields. -/
theorem C122_force_false : ¬ C122_force_statement := by
  intro h
  have all : ∀ (s : State Unit Unit) (n : Nat), 0 < n →
      ((Demo.loopBody (Mrx.step (fun _ => ⟨(), .fin 2, .fin 7, .fin 1⟩) (1 / 2) 20) (1 / 2))^[n] s).picardResiduum = .fin 2 := by
    intro s n hn
    obtain ⟨n, rfl⟩ : ∃ m, n = m + 1 := ⟨n - 1, by omega⟩
    rw [Function.iterate_succ_apply']
    rw [(C122_iteration _ _ _).2.2.2.2.2.2.1]
    obtain ⟨p, -, -, -, -, -, e, -⟩ := C48_last (C48_picard_terminates (fun _ : State Unit Unit => (⟨(), .fin 2, .fin 7, .fin 1⟩ : Update Unit)) (1 / 2) 20
      ((Demo.loopBody (Mrx.step (fun _ => ⟨(), .fin 2, .fin 7, .fin 1⟩) (1 / 2) 20) (1 / 2))^[n] s)) (by norm_num) (by norm_num)
    exact e
  obtain ⟨x, e, hx⟩ := h Unit Unit (fun _ => ⟨(), .fin 2, .fin 7, .fin 1⟩) (1 / 2) 20 ⟨(), (), 1, 0, (), 0, .fin 0, .fin 0, .fin 0⟩ (by norm_num) (by norm_num) 1 (by norm_num)
  have := all ⟨(), (), 1, 0, (), 0, .fin 0, .fin 0, .fin 0⟩ (100 * 1) (by norm_num)
  rw [this] at e
  injection e with e
  linarith

end

/-! ## The physics of the loops -/

section
variable {ns ps : Nat × Nat × Nat} {q : Nat} {types : String × String × String} {F : V3 → V3} {polar dirichlet : Bool} {T : Stepper}
  (h : Admissible ns ps q types F polar dirichlet T.D)
include h

/-- **C122** if the field and the guess are divergence-free at the start, they are after every number of iterations, accepted or rejected. -/
theorem C122_divergence_free (tol : ℝ) (maxit : Int) (s : T.St) (hB : T.D.strongDiv *ᵥ s.Bn = 0) (hG : T.D.strongDiv *ᵥ s.Bguess = 0) (n : Nat) :
    T.D.strongDiv *ᵥ ((Demo.loopBody (Mrx.step T.update tol maxit) tol)^[n] s).Bn = 0 ∧ T.D.strongDiv *ᵥ ((Demo.loopBody (Mrx.step T.update tol maxit) tol)^[n] s).Bguess = 0 := by
  induction n with
  | zero => exact ⟨hB, hG⟩
  | succ n ih =>
    rw [Function.iterate_succ_apply']
    obtain ⟨s', e⟩ : ∃ s' : T.St, s' = (Demo.loopBody (Mrx.step T.update tol maxit) tol)^[n] s := ⟨_, rfl⟩
    rw [← e] at ih ⊢
    have st : T.D.strongDiv *ᵥ (Mrx.step T.update tol maxit s').Bn = 0 ∧ T.D.strongDiv *ᵥ (Mrx.step T.update tol maxit s').Bguess = 0 := by
      obtain ⟨k, hk, _⟩ := step_iterate T.update tol maxit s'
      rw [hk]
      exact iterate_inv (P := fun B => T.D.strongDiv *ᵥ B = 0) T.update (fun s h1 _ => C45_update h s h1) k _ ih.1 ih.2
    obtain ⟨p, q, -⟩ := C122_iteration (Mrx.step T.update tol maxit) tol s'
    by_cases hx : ∃ x, (Mrx.step T.update tol maxit s').picardResiduum = .fin x ∧ x ≤ tol
    · rw [(p hx).1, (p hx).2.1]; exact ⟨st.2, st.2⟩
    · rw [(q hx).1, (q hx).2.1]; exact ⟨st.1, st.1⟩

/-- **C122** every iteration, accepted or rejected, raises the magnetic energy by at most half the Picard tolerance times the size of the change of the field. -/
theorem C122_energy (hX : IsPinv T.D.dd3 T.pinv) (hn : T.newton = false) (tol : ℝ) (htol : tol < 1) (maxit : Int) (hmax : 0 < maxit) (s : T.St) (hdt : 0 ≤ s.dt) (heta : 0 ≤ s.eta) :
    let s' := Demo.loopBody (Mrx.step T.update tol maxit) tol s
    T.D.energy s'.Bn ≤ T.D.energy s.Bn + 1 / 2 * (tol * T.D.norm2 (s'.Bn - s.Bn)) := by
  intro s'
  have c := C46_loop h hX hn (Demo.libraryConfig tol maxit 1 0 1) htol hmax 0 (fun _ => 0) (fun _ => 0) 0 1 ⟨s, emptyTrace _, false⟩ hdt heta
    (by simp [Demo.libraryConfig])
  have l := (C122_library (T.env 0 (fun _ => 0) fun _ => 0) tol maxit 1 1 0 0 1 ⟨s, emptyTrace _, false⟩ rfl).1
  have e := congrArg State.Bn l
  dsimp only at c e
  rw [e] at c
  exact c

end

/-! ## The diagnostics -/

section
variable {ns ps : Nat × Nat × Nat} {q : Nat} {types : String × String × String} {F : V3 → V3} {polar dirichlet : Bool} {D : DeRham}

/-- The volume average of a scalar function. -/
noncomputable def average (D : DeRham) (F : V3 → V3) (g : V3 → Fin 1 → ℝ) : ℝ := integral D F g / integral D F fun _ _ => 1

/-- The plasma beta: the average of the pressure over that of the magnetic pressure `|B|^2 / 2`. -/
noncomputable def plasmaBeta (D : DeRham) (F : V3 → V3) (B : Fin D.m2 → ℝ) (p : Fin D.m0 → ℝ) : ℝ :=
  average D F (D.phys0 p) / average D F (fun x _ => (D.phys2 B x ⬝ᵥ D.phys2 B x) / 2)

theorem demo_volume (h : Admissible ns ps q types F polar dirichlet D) :
    ∑ j ∈ range D.S.Q.w.length, D.g.J j * D.S.Q.w.getD j 0 = integral D F fun _ _ => 1 := by
  rw [single_volume_eq h, ← integral_eq h]

theorem demo_volume_pos (h : Admissible ns ps q types F polar dirichlet D) : 0 < integral D F fun _ _ => 1 := by
  unfold integral
  refine sum_pos (fun j hj => ?_) ⟨0, mem_range.mpr (nq_pos' h)⟩
  rw [one_mul]
  exact weight_pos h (mem_range.mp hj)

theorem demo_energy (h : Admissible ns ps q types F polar dirichlet D) (B : Fin D.m2 → ℝ) :
    integral D F (fun x _ => (D.phys2 B x ⬝ᵥ D.phys2 B x) / 2) = (B ⬝ᵥ D.M2 *ᵥ B) / 2 := by
  rw [h.M2_l2, h.l2_eq, sum_div]
  unfold integral
  exact sum_congr rfl fun j _ => by ring

/-- **C122** `p_avg` is the volume average of the pressure, with and without Dirichlet conditions. -/
theorem C122_average_pressure (h : Admissible ns ps q types F polar dirichlet D) (p : Fin D.m0 → ℝ) : Demo.pAvg D p = average D F (D.phys0 p) := by
  unfold Demo.pAvg average
  rw [demo_volume h, h.proj0_l2]
  congr 1
  rw [h.l2_eq]
  exact sum_congr rfl fun j _ => by simp [dotProduct]

/-- **C122** (finding; exact domain) the number printed as plasma beta times the volume is the plasma beta; it is the plasma beta exactly if the volume is 1 or the average pressure is 0. -/
theorem C122_beta_iff (h : Admissible ns ps q types F polar dirichlet D) (B : Fin D.m2 → ℝ) (hB : B ≠ 0) (p : Fin D.m0 → ℝ) :
    (Demo.beta D B p * integral D F fun _ _ => 1) = plasmaBeta D F B p ∧
    (Demo.beta D B p = plasmaBeta D F B p ↔ (integral D F fun _ _ => 1) = 1 ∨ average D F (D.phys0 p) = 0) := by
  obtain ⟨-, -, m2, -⟩ := C31_mass_matrices_definite h
  have vp := demo_volume_pos h
  have bp := m2.2 B hB
  have e : (Demo.beta D B p * integral D F fun _ _ => 1) = plasmaBeta D F B p := by
    unfold Demo.beta plasmaBeta
    rw [C122_average_pressure h]
    nth_rewrite 3 [average]
    rw [demo_energy h]
    field_simp
  refine ⟨e, ?_⟩
  rw [← e]
  constructor
  · intro c
    have z : Demo.beta D B p * (1 - integral D F fun _ _ => 1) = 0 := by linarith
    rcases mul_eq_zero.mp z with z | z
    · right
      unfold Demo.beta at z
      rw [C122_average_pressure h, div_eq_zero_iff] at z
      rcases z with z | z
      · linarith
      · exact absurd z bp.ne'
    · left; linarith
  · rintro (c | c)
    · rw [c, mul_one]
    · unfold Demo.beta
      rw [C122_average_pressure h, c]
      simp

theorem demo_size (h : Admissible ns ps q types F false false D) (t1 : types.1 = "clamped") (t2 : types.2.1 = "periodic") (t3 : types.2.2 = "periodic") : 0 < D.m2 := by
  have w := h.cw t1 (by rw [t2]; decide) (by rw [t3]; decide)
  obtain ⟨S, hS, ⟨hp, rfl⟩ | ⟨hp, rfl⟩⟩ := Admissible.cases' h.built
  · cases hp
  · have d2 := w.d2
    have hM : 1 ≤ ns.2.1 := w.hM
    have hL : 1 ≤ ns.2.2 := w.hL
    have hN : 1 ≤ ns.1 := by
      have := h.r
      unfold DirOK at this
      rcases this with ⟨_, _⟩ | ⟨_, _⟩ | ⟨_, _⟩ <;> omega
    simp only [DeRham.ofBoundary]
    simp only [DeRham.ofBoundary] at d2
    rw [d2]
    simp [BoundaryOp.rowDims, dk, Dims.n, Dims.n1, Dims.n2, Dims.n3, DeRham.bcTypes, getDim]
    have c1 : 0 < ns.1 * ns.2.1 * ns.2.2 := Nat.mul_pos (Nat.mul_pos (by omega) hM) hL
    omega

/-- **C122** expected but false: the number printed is the plasma beta on every domain. -/
def C122_beta_statement : Prop := ∀ (ns ps : Nat × Nat × Nat) (q : Nat) (types : String × String × String) (F : V3 → V3) (polar dirichlet : Bool) (D : DeRham),
  Admissible ns ps q types F polar dirichlet D → ∀ (B : Fin D.m2 → ℝ) (p : Fin D.m0 → ℝ), Demo.beta D B p = plasmaBeta D F B p

/-- **C122** (finding) on the same grid with two maps of different volumes one of the numbers is wrong. -/
theorem C122_beta_false : ¬ C122_beta_statement := by
  intro H
  have key : ∀ (A : Matrix (Fin 3) (Fin 3) ℝ), 1e-5 ≤ A.det → ∀ S : Seq ℝ, Seq.mk? (6, 6, 4) (3, 2, 1) 4 ("clamped", "periodic", "periodic") = .ok S →
      A.det * ∑ j ∈ range S.Q.w.length, S.Q.w.getD j 0 = 1 := by
    intro A hA S hS
    have dt : ∀ x, (jacfwd (fun y : V3 => A *ᵥ y) x).det = A.det := fun x => by rw [jacfwd_mulVec]
    obtain ⟨D, h⟩ := Admissible.exists (q := 4) (types := ("clamped", "periodic", "periodic")) (ns := (6, 6, 4)) (ps := (3, 2, 1)) (fun y : V3 => A *ᵥ y) false false
      (by norm_num) (by unfold DirOK; norm_num) (by unfold DirOK; norm_num) (by unfold DirOK; norm_num) (by simp) fun x => by
        show 1e-5 ≤ (jacfwd (fun y : V3 => A *ᵥ y) x).det
        rw [dt]; exact hA
    have eS : D.S = S := by
      have := Admissible.seq h.built
      rw [hS] at this
      exact (Except.ok.inj this).symm
    have hm := h.quad.wf
    have hp : 0 < D.m2 := demo_size h rfl rfl rfl
    have one := fun _ : Fin D.m0 => (1 : ℝ)
    have vp := demo_volume_pos h
    have av : average D (fun y : V3 => A *ᵥ y) (D.phys0 fun _ => 1) = 1 := by
      unfold average
      rw [← (C121_integrals h).1, (C121_integrals h).2.2.1, div_self vp.ne']
    have c := ((C122_beta_iff h (fun _ => 1) (fun e => by have := congrFun e ⟨0, hp⟩; simp at this) fun _ => 1).2.mp (H _ _ _ _ _ _ _ _ h _ _)).resolve_right (by rw [av]; norm_num)
    unfold integral at c
    rw [← c, mul_sum, ← eS]
    refine sum_congr rfl fun j _ => ?_
    rw [dt, one_mul]
    rfl
  obtain ⟨S, hS⟩ : ∃ S : Seq ℝ, Seq.mk? (6, 6, 4) (3, 2, 1) 4 ("clamped", "periodic", "periodic") = .ok S := ⟨_, rfl⟩
  have a := key 1 (by norm_num) S hS
  have b := key (Matrix.diagonal ![2, 1, 1]) (by simp [det_diagonal, Fin.prod_univ_three]; norm_num) S hS
  have d : (Matrix.diagonal ![2, 1, 1] : Matrix (Fin 3) (Fin 3) ℝ).det = 2 := by simp [det_diagonal, Fin.prod_univ_three]
  rw [det_one] at a
  rw [d] at b
  linarith

/-- **C122** the Shafranov shift: `x_max` is a point of the poloidal grid at which the pressure is greatest among all its points, and the shift its distance from (1, 0, 0). -/
theorem C122_shift (F : V3 → V3) (p : V3 → ℝ) (args : Grid2Args) (hne : (get2dGrids F 0 2 args).x ≠ []) :
    ∃ x ∈ (get2dGrids F 0 2 args).x, (∀ y ∈ (get2dGrids F 0 2 args).x, p y ≤ p x) ∧ Demo.xMax F p args = F x ∧
      Demo.shift F p args = √ ((F x 0 - 1) ^ 2 + F x 1 ^ 2 + F x 2 ^ 2) := by
  obtain ⟨l, hl⟩ : ∃ l, l = (get2dGrids F 0 2 args).x := ⟨_, rfl⟩
  have hy : (get2dGrids F 0 2 args).y = l.map F := by rw [hl]; rfl
  rw [← hl] at hne ⊢
  have hmem : Figures.maxOf (l.map p) ∈ l.map p ∧ ∀ v ∈ l.map p, v ≤ Figures.maxOf (l.map p) := ⟨maxOf_mem (by simpa using hne), fun v hv => le_maxOf hv⟩
  have hi : Demo.argmax (l.map p) < (l.map p).length := List.idxOf_lt_length_of_mem hmem.1
  have hi' : Demo.argmax (l.map p) < l.length := by simpa using hi
  have ev : p l[Demo.argmax (l.map p)] = Figures.maxOf (l.map p) := by
    have := List.getElem_idxOf hi
    change (l.map p)[Demo.argmax (l.map p)] = _ at this
    rw [List.getElem_map] at this
    exact this
  have ex : Demo.xMax F p args = F l[Demo.argmax (l.map p)] := by
    unfold Demo.xMax
    dsimp only
    rw [hy, ← hl, List.getD_eq_getElem _ _ (by simpa using hi'), List.getElem_map]
  refine ⟨l[Demo.argmax (l.map p)], List.getElem_mem _, fun y hy => ?_, ex, ?_⟩
  · rw [ev]
    exact hmem.2 _ (List.mem_map_of_mem hy)
  · unfold Demo.shift vnorm
    rw [ex]
    congr 1
    simp [dotProduct, Fin.sum_univ_three]
    ring

/-- **C122** (finding) the pressure drawn for the GVEC equilibrium after its relaxation is that of the field before it: for all solvers and histories. The one of the first equilibrium is that of
the relaxed field. -/
theorem C122_shown_pressure {H : Type} (step : State (Fin D.m2 → ℝ) H → State (Fin D.m2 → ℝ) H) (tol : ℝ) (hel : (Fin D.m2 → ℝ) → FV) (s : State (Fin D.m2 → ℝ) H) :
    Demo.shownGvec D s.Bn (Demo.relaxGvec step tol hel s) = D.pressure s.Bn ∧
    Demo.shownTokamak D s.Bn (Demo.relaxTokamak step tol hel s) = D.pressure ((Demo.loopBody step tol)^[2000] s).Bn := by
  refine ⟨rfl, ?_⟩
  have := (C122_tokamak step tol hel s).1
  dsimp only at this
  unfold Demo.shownTokamak
  dsimp only
  rw [this]

end

/-! ## Concrete cases -/

example := C122_same_loops (Mrx.step (caseEnv 0).upd (1 / 2) 20) (1 / 2)
example := C122_iteration (Mrx.step (caseEnv 0).upd (1 / 2) 20) (1 / 2) caseState
example := C122_tokamak (Mrx.step (caseEnv 0).upd (1 / 2) 20) (1 / 2) (fun _ => .fin 0) caseState
example := C122_gvec (Mrx.step (caseEnv 0).upd (1 / 2) 20) (1 / 2) (fun _ => .fin 0) caseState
example := C122_time_step (Mrx.step (caseEnv 0).upd (1 / 2) 20) (1 / 2)
  (fun s => ⟨(C48_frame (C48_picard_terminates (caseEnv 0).upd (1 / 2) 20 s)).2.1, (C48_frame (C48_picard_terminates (caseEnv 0).upd (1 / 2) 20 s)).2.2.1⟩) caseState 7
example (polar : Bool) := C122_divergence_free (Case.T_adm polar 1 false false) (1 / 2) 20
example (polar : Bool) := C122_energy (Case.T_adm polar 1 false false) (Case.T_pinv polar 1 false false) rfl (1 / 2) (by norm_num) 20 (by norm_num)
example (polar dirichlet : Bool) := C122_average_pressure (Case.adm polar dirichlet)
example (polar dirichlet : Bool) := C122_beta_iff (Case.adm polar dirichlet)
example := C122_shift (fun y => y) (fun y => y 0) { nx := 3, tol1 := 0, tol2 := 0, tol3 := 0 }

end Mrx.Props
