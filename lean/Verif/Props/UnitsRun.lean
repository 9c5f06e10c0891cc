import Verif.Props.Units
import Verif.Props.Relaxation
import Mathlib.Tactic.FieldSimp

/-!
# C97: a relaxation run in other units
-/

set_option linter.unusedSectionVars false
set_option linter.unusedVariables false

namespace Mrx.Props
open Matrix Mrx Spec

/-- A number in other units. -/
def FV.scale (k : ℝ) : FV → FV
  | .fin r => .fin (k * r)
  | x => x

/-- The same stepper on the other map: the pseudo-inverse of `dd3` is that of the rescaled matrix. -/
noncomputable abbrev otherUnits (T : Stepper) (F' : V3 → V3) (s : ℝ) : Stepper where
  D := withMap T.D F'
  pinv := s ^ 2 • T.pinv
  lstsq := T.lstsq
  gamma := T.gamma
  newton := T.newton
  forceFree := T.forceFree

section
variable {T : Stepper} {F' : V3 → V3} {s c : ℝ} (h : Rescaled T.D F' s) (hc : 0 < c) (hn : T.newton = false) (hg : T.gamma = 0)
  {x : T.St} {x' : (otherUnits T F' s).St}

/-- The state in units of length `s` and of the field `c`: the time step is in units `s⁶ / c²`, the resistivity in units `c² / s⁴`. -/
structure SameState (c s : ℝ) {V H H' : Type} [SMul ℝ V] (x : State V H) (x' : State V H') : Prop where
  Bn : x'.Bn = c • x.Bn
  Bguess : x'.Bguess = c • x.Bguess
  dt : x'.dt = s ^ 6 / c ^ 2 * x.dt
  eta : x'.eta = c ^ 2 / s ^ 4 * x.eta

variable (hx : SameState c s (V := T.Field) x x')
include h hc hn hg hx

theorem units_Bmid : ((otherUnits T F' s).Bmid x' : T.Field) = c • T.Bmid x := by
  change (1 / 2 : ℝ) • ((x'.Bguess : T.Field) + x'.Bn) = _
  rw [hx.Bn, hx.Bguess, ← smul_add, smul_comm]
  rfl

theorem units_J : ((otherUnits T F' s).J x' : Fin T.D.m1 → ℝ) = (c / s ^ 2) • T.J x := by
  change ((withMap T.D F').weakCurl : Matrix (Fin T.D.m1) (Fin T.D.m2) ℝ) *ᵥ ((otherUnits T F' s).Bmid x' : T.Field) = _
  rw [h.weakCurl, units_Bmid h hc hn hg hx, smul_mulVec, mulVec_smul, smul_smul, div_eq_inv_mul]
  rfl

theorem units_H : ((otherUnits T F' s).Hh x' : Fin T.D.m1 → ℝ) = (c / s) • T.Hh x := by
  change ((withMap T.D F').P12 : Matrix (Fin T.D.m1) (Fin T.D.m2) ℝ) *ᵥ ((otherUnits T F' s).Bmid x' : T.Field) = _
  rw [h.P12, units_Bmid h hc hn hg hx, smul_mulVec, mulVec_smul, smul_smul, div_eq_inv_mul]
  rfl

theorem units_JxH : ((otherUnits T F' s).JxH x' : T.Field) = (c ^ 2 / s ^ 3) • T.JxH x := by
  change ((withMap T.D F').M2 : Matrix (Fin T.D.m2) (Fin T.D.m2) ℝ)⁻¹ *ᵥ ((withMap T.D F').P1x1to2 ((otherUnits T F' s).J x' : Fin T.D.m1 → ℝ)
    ((otherUnits T F' s).Hh x' : Fin T.D.m1 → ℝ) : Fin T.D.m2 → ℝ) = _
  rw [h.M2inv, units_J h hc hn hg hx, units_H h hc hn hg hx, h.P1x1to2, smul_mulVec, mulVec_smul, smul_smul]
  have := h.pos.ne'
  rw [show s * (s⁻¹ * (c / s ^ 2 * (c / s))) = c ^ 2 / s ^ 3 by field_simp]
  rfl

theorem units_f : ((otherUnits T F' s).f x' : T.Field) = (c ^ 2 / s ^ 3) • T.f x := by
  have e := units_JxH h hc hn hg hx
  unfold Stepper.f
  cases hf : T.forceFree
  · change ((withMap T.D F').leray (s ^ 2 • T.pinv) : Matrix (Fin T.D.m2) (Fin T.D.m2) ℝ) *ᵥ ((otherUnits T F' s).JxH x' : T.Field) = _
    rw [h.leray, e, mulVec_smul]
    rfl
  · exact e

theorem units_u : ((otherUnits T F' s).u x' : T.Field) = (c ^ 2 / s ^ 3) • T.u x := by
  have e := units_f h hc hn hg hx
  have e1 : ∀ (T : Stepper) (x : T.St), T.newton = false → T.gamma = 0 → T.u x = T.f x := fun T x hn hg => by
    unfold Stepper.u Stepper.u0
    simp [hn, hg]
  rw [e1 T x hn hg]
  exact (e1 (otherUnits T F' s) x' hn hg).trans e

theorem units_E : ((otherUnits T F' s).E x' : Fin T.D.m1 → ℝ) = (c ^ 3 / s ^ 6) • T.E x := by
  change ((withMap T.D F').M1 : Matrix (Fin T.D.m1) (Fin T.D.m1) ℝ)⁻¹ *ᵥ ((withMap T.D F').P2x1to1 ((otherUnits T F' s).u x' : Fin T.D.m2 → ℝ)
    ((otherUnits T F' s).Hh x' : Fin T.D.m1 → ℝ) : Fin T.D.m1 → ℝ) - x'.eta • ((otherUnits T F' s).J x' : Fin T.D.m1 → ℝ) = _
  rw [h.M1inv, units_u h hc hn hg hx, units_H h hc hn hg hx, units_J h hc hn hg hx, h.P2x1to1, hx.eta, smul_mulVec, mulVec_smul, smul_smul, smul_smul]
  have := h.pos.ne'
  rw [show s⁻¹ * (s⁻¹ * (c ^ 2 / s ^ 3 * (c / s))) = c ^ 3 / s ^ 6 by field_simp, show c ^ 2 / s ^ 4 * x.eta * (c / s ^ 2) = c ^ 3 / s ^ 6 * x.eta by field_simp, ← smul_smul,
    ← smul_sub]
  rfl

theorem units_next : ((otherUnits T F' s).Bnext x' : T.Field) = c • T.Bnext x := by
  change (x'.Bn : T.Field) + x'.dt • (((withMap T.D F').strongCurl : Matrix (Fin T.D.m2) (Fin T.D.m1) ℝ) *ᵥ ((otherUnits T F' s).E x' : Fin T.D.m1 → ℝ)) = _
  rw [hx.Bn, hx.dt, h.strongCurl, units_E h hc hn hg hx, mulVec_smul, smul_smul]
  have := h.pos.ne'
  rw [show s ^ 6 / c ^ 2 * x.dt * (c ^ 3 / s ^ 6) = c * x.dt by field_simp, ← smul_smul, ← smul_add]
  rfl

end

theorem norm2_smul (D : DeRham) {c : ℝ} (hc : 0 ≤ c) (B : Fin D.m2 → ℝ) : D.norm2 (c • B) = c * D.norm2 B := by
  unfold DeRham.norm2
  rw [mulVec_smul, dotProduct_smul, smul_dotProduct, smul_smul, smul_eq_mul, Real.sqrt_mul (mul_self_nonneg c), Real.sqrt_mul_self hc]

section
variable {T : Stepper} {F' : V3 → V3} {s c : ℝ} (h : Rescaled T.D F' s) (hc : 0 < c) (hn : T.newton = false) (hg : T.gamma = 0)
  {x : T.St} {x' : (otherUnits T F' s).St}
variable (hx : SameState c s (V := T.Field) x x')
include h hc hn hg hx

/-- **C97** one evaluation of the midpoint equations in other units gives the same field; the residual is in the units of the energy norm of the field, the norms of force and velocity
in those units times `c / s³`. -/
theorem C97_update : ((otherUnits T F' s).update x').B = (c • T.Bnext x : T.Field) ∧
    ((otherUnits T F' s).update x').residuum = FV.scale (c / √s) (T.update x).residuum ∧
    ((otherUnits T F' s).update x').force = FV.scale (c ^ 2 / s ^ 3 / √s) (T.update x).force ∧
    ((otherUnits T F' s).update x').velocity = FV.scale (c ^ 2 / s ^ 3 / √s) (T.update x).velocity := by
  have e := units_next h hc hn hg hx
  have c3 : 0 ≤ c ^ 2 / s ^ 3 := div_nonneg (sq_nonneg c) (pow_nonneg h.pos.le 3)
  refine ⟨e, ?_, ?_, ?_⟩
  · change FV.fin ((withMap T.D F').norm2 (((otherUnits T F' s).Bnext x' : T.Field) - x'.Bguess)) = .fin (c / √s * T.D.norm2 (T.Bnext x - x.Bguess))
    rw [e, hx.Bguess, ← smul_sub, h.norm2, norm2_smul _ hc.le]
    congr 1; ring
  · change FV.fin ((withMap T.D F').norm2 ((otherUnits T F' s).f x' : T.Field)) = .fin (c ^ 2 / s ^ 3 / √s * T.D.norm2 (T.f x))
    rw [units_f h hc hn hg hx, h.norm2, norm2_smul _ c3]
    congr 1; ring
  · change FV.fin ((withMap T.D F').norm2 ((otherUnits T F' s).u x' : T.Field)) = .fin (c ^ 2 / s ^ 3 / √s * T.D.norm2 (T.u x))
    rw [units_u h hc hn hg hx, h.norm2, norm2_smul _ c3]
    congr 1; ring

end

/-! ## The loop -/

theorem whileLoop_sim {σ σ' : Type} {R : σ → σ' → Prop} {cond : σ → Prop} {body : σ → σ} {cond' : σ' → Prop} {body' : σ' → σ'} (hcond : ∀ a b, R a b → (cond a ↔ cond' b))
    (hbody : ∀ a b, R a b → R (body a) (body' b)) : ∀ (fuel : Nat) (a : σ) (b : σ') {r : σ} {r' : σ'}, R a b → whileLoop cond body fuel a = some r →
      whileLoop cond' body' fuel b = some r' → R r r'
  | 0, a, b, r, r', hab, h1, h2 => by simp [whileLoop] at h1
  | fuel + 1, a, b, r, r', hab, h1, h2 => by
    unfold whileLoop at h1 h2
    by_cases hb : cond a
    · rw [if_pos hb] at h1
      rw [if_pos ((hcond a b hab).1 hb)] at h2
      exact whileLoop_sim hcond hbody fuel _ _ (hbody a b hab) h1 h2
    · rw [if_neg hb] at h1
      rw [if_neg (fun hh => hb ((hcond a b hab).2 hh))] at h2
      obtain rfl := Option.some.inj h1
      obtain rfl := Option.some.inj h2
      exact hab

theorem FV.scale_gt {k : ℝ} (hk : 0 < k) (x : FV) (t : ℝ) : FV.gt (FV.scale k x) (.fin (k * t)) ↔ FV.gt x (.fin t) := by
  cases x <;> simp [FV.scale, FV.gt, FV.lt, hk]

theorem FV.scale_lt {k : ℝ} (hk : 0 < k) (x : FV) (t : ℝ) : FV.lt (FV.scale k x) (.fin (k * t)) ↔ FV.lt x (.fin t) := by
  cases x <;> simp [FV.scale, FV.lt, hk]

theorem FV.scale_isnan (k : ℝ) (x : FV) : (FV.scale k x).isnan ↔ x.isnan := by cases x <;> simp [FV.scale, FV.isnan]
theorem FV.scale_isfinite (k : ℝ) (x : FV) : (FV.scale k x).isfinite ↔ x.isfinite := by cases x <;> simp [FV.scale, FV.isfinite]

/-- The state of the loop in other units; `μ` is the unit of the norms of force and velocity. -/
structure SameLoopState (c s μ : ℝ) {V H H' : Type} [SMul ℝ V] (x : State V H) (x' : State V H') : Prop extends SameState c s x x' where
  force : x'.forceNorm = FV.scale μ x.forceNorm
  velocity : x'.velocityNorm = FV.scale μ x.velocityNorm

/-- During a solve: the residual is in units `ρ`, unless it still has its starting value 1. -/
structure SameSolve (c s μ ρ : ℝ) {V H H' : Type} [SMul ℝ V] (x : State V H) (x' : State V H') : Prop extends SameLoopState c s μ x x' where
  iterations : x'.picardIterations = x.picardIterations
  residuum : x'.picardResiduum = FV.scale ρ x.picardResiduum ∨ (x.picardResiduum = .fin 1 ∧ x'.picardResiduum = .fin 1)

section
variable {c s μ ρ : ℝ} {V H H' : Type} [SMul ℝ V]

/-- One update in other units. -/
def SameUpdate (c s μ ρ : ℝ) (upd : State V H → Update V) (upd' : State V H' → Update V) : Prop :=
  ∀ x x', SameState c s x x' → (upd' x').B = c • (upd x).B ∧ (upd' x').residuum = FV.scale ρ (upd x).residuum ∧ (upd' x').force = FV.scale μ (upd x).force ∧
    (upd' x').velocity = FV.scale μ (upd x).velocity

theorem residual_iff (hρ : 0 < ρ) {tol : ℝ} (ht : tol < 1) (ht' : ρ * tol < 1) {x : State V H} {x' : State V H'} (h : SameSolve c s μ ρ x x') :
    (FV.gt x'.picardResiduum (.fin (ρ * tol)) ↔ FV.gt x.picardResiduum (.fin tol)) ∧ (x'.picardResiduum.isnan ↔ x.picardResiduum.isnan) ∧
      (x'.picardResiduum.isfinite ↔ x.picardResiduum.isfinite) := by
  rcases h.residuum with e | ⟨e1, e2⟩
  · rw [e]
    exact ⟨FV.scale_gt hρ _ _, FV.scale_isnan _ _, FV.scale_isfinite _ _⟩
  · rw [e1, e2]
    simp [FV.gt, FV.lt, ht, ht']

theorem step_same (hρ : 0 < ρ) {tol : ℝ} (ht : tol < 1) (ht' : ρ * tol < 1) (maxit : Int) {upd : State V H → Update V} {upd' : State V H' → Update V}
    (hu : SameUpdate c s μ ρ upd upd') {x : State V H} {x' : State V H'} (h : SameLoopState c s μ x x') :
    SameSolve c s μ ρ (step upd tol maxit x) (step upd' (ρ * tol) maxit x') := by
  obtain ⟨r, hr⟩ := stepper_some upd tol maxit x
  obtain ⟨r', hr'⟩ := stepper_some upd' (ρ * tol) maxit x'
  have e : step upd tol maxit x = r := by simp [step, hr]
  have e' : step upd' (ρ * tol) maxit x' = r' := by simp [step, hr']
  rw [e, e']
  refine whileLoop_sim (R := SameSolve c s μ ρ) ?_ ?_ (maxit.toNat + 1) _ _ ?_ hr hr'
  · intro a b hab
    obtain ⟨r1, r2, -⟩ := residual_iff hρ ht ht' hab
    unfold stepperCond
    rw [r1, r2, hab.iterations]
  · intro a b hab
    obtain ⟨u1, u2, u3, u4⟩ := hu a b hab.toSameState
    exact { Bn := hab.Bn, Bguess := u1, dt := hab.dt, eta := hab.eta, force := u3, velocity := u4, iterations := congrArg (· + 1) hab.iterations, residuum := .inl u2 }
  · exact { Bn := h.Bn, Bguess := h.Bguess, dt := h.dt, eta := h.eta, force := h.force, velocity := h.velocity, iterations := rfl, residuum := .inr ⟨rfl, rfl⟩ }

end

/-- The trace in other units. -/
structure SameTrace (c s : ℝ) {V : Type} [SMul ℝ V] (t t' : Trace V) : Prop where
  iterations : t'.iterations = t.iterations
  force : t'.force = t.force.map (FV.scale (c ^ 2 / s ^ 3 / √s))
  energy : t'.energy = t.energy.map (FV.scale (c ^ 2 / s))
  helicity : t'.helicity = t.helicity.map (FV.scale (c ^ 2))
  divergence : t'.divergence = t.divergence.map (FV.scale (c / √(s ^ 3)))
  picardIterations : t'.picardIterations = t.picardIterations
  picardErrors : t'.picardErrors = t.picardErrors.map (FV.scale (c / √s))
  timesteps : t'.timesteps = t.timesteps.map (s ^ 6 / c ^ 2 * ·)
  velocity : t'.velocity = t.velocity.map (FV.scale (c ^ 2 / s ^ 3 / √s))
  wallTime : t'.wallTime = t.wallTime
  Bfields : t'.Bfields = t.Bfields.map (c • ·)

/-- The configuration in other units: the tolerances and the perturbation are given in the units of what they are compared with. -/
noncomputable def otherConfig (c s : ℝ) (cfg : RelaxConfig) : RelaxConfig :=
  { cfg with solverTol := c / √s * cfg.solverTol, forceTol := c ^ 2 / s ^ 3 / √s * cfg.forceTol, pertStrength := c / √s * cfg.pertStrength }

/-- The computations in other units. -/
structure SameEnv (c s : ℝ) {V H H' : Type} [SMul ℝ V] (env : RelaxEnv V H) (env' : RelaxEnv V H') : Prop where
  upd : SameUpdate c s (c ^ 2 / s ^ 3 / √s) (c / √s) env.upd env'.upd
  energy : ∀ B, env'.energy (c • B) = FV.scale (c ^ 2 / s) (env.energy B)
  helicity : ∀ B, env'.helicity (c • B) = FV.scale (c ^ 2) (env.helicity B)
  divergence : ∀ B, env'.divergence (c • B) = FV.scale (c / √(s ^ 3)) (env.divergence B)
  perturb : ∀ B, env'.perturb (c • B) = c • env.perturb B
  clock : env'.clock = env.clock

section
variable {c s : ℝ} {V H H' : Type} [SMul ℝ V] (hc : 0 < c) (hs : 0 < s)
include hc hs

theorem unit_pos : 0 < c / √s ∧ 0 < c ^ 2 / s ^ 3 / √s := by
  have := Real.sqrt_pos.2 hs
  exact ⟨by positivity, by positivity⟩

theorem append_same {t t' : Trace V} (h : SameTrace c s t t') (start : ℝ) (i : Nat) {f E Hel dvg v f' E' Hel' dvg' v' : FV} (pi : Int) {e e' : FV} {dt dt' : ℝ} (time : ℝ)
    {B B' : Option V} (hf : f' = FV.scale (c ^ 2 / s ^ 3 / √s) f) (hE : E' = FV.scale (c ^ 2 / s) E) (hH : Hel' = FV.scale (c ^ 2) Hel) (hd : dvg' = FV.scale (c / √(s ^ 3)) dvg)
    (hv : v' = FV.scale (c ^ 2 / s ^ 3 / √s) v) (he : e' = FV.scale (c / √s) e) (hdt : dt' = s ^ 6 / c ^ 2 * dt) (hB : B' = B.map (c • ·)) :
    SameTrace c s (t.append start i f E Hel dvg v pi e dt time B) (t'.append start i f' E' Hel' dvg' v' pi e' dt' time B') := by
  constructor
  case Bfields =>
    subst hB
    cases B with
    | none => exact h.Bfields
    | some b => simp [Trace.append, h.Bfields]
  all_goals simp [Trace.append, h.iterations, h.force, h.energy, h.helicity, h.divergence, h.picardIterations, h.picardErrors, h.timesteps, h.velocity, h.wallTime, hf, hE, hH, hd, hv, he, hdt]

variable {cfg : RelaxConfig} (ht : cfg.solverTol < 1) (ht' : c / √s * cfg.solverTol < 1) {env : RelaxEnv V H} {env' : RelaxEnv V H'} (henv : SameEnv c s env env') (start : ℝ)
include ht ht' henv

/-- The local variables of the loop in other units. -/
structure SameRun (c s : ℝ) {V H H' : Type} [SMul ℝ V] (l : LoopState V H) (l' : LoopState V H') : Prop where
  state : SameLoopState c s (c ^ 2 / s ^ 3 / √s) l.state l'.state
  trace : SameTrace c s l.trace l'.trace
  stopped : l'.stopped = l.stopped

theorem init_same {x : State V H} {x' : State V H'} (hx : SameLoopState c s (c ^ 2 / s ^ 3 / √s) x x') {t t' : Trace V} (h : SameTrace c s t t') :
    SameRun c s (relaxInit cfg env start x t) (relaxInit (otherConfig c s cfg) env' start x' t') := by
  obtain ⟨p1, p2⟩ := unit_pos hc hs
  have st := step_same p1 ht ht' cfg.solverMaxit henv.upd hx
  refine ⟨hx, ?_, rfl⟩
  have e : env'.clock 0 = env.clock 0 := by rw [henv.clock]
  unfold relaxInit
  dsimp only
  rw [e]
  refine append_same hc hs h start 0 0 _ st.force ?_ ?_ ?_ st.velocity ?_ st.dt ?_
  · rw [hx.Bn, henv.energy]
  · rw [hx.Bn, henv.helicity]
  · rw [hx.Bn, henv.divergence]
  · simp [FV.scale]
  · change (if cfg.saveB then some x'.Bn else none) = _
    rw [hx.Bn]
    split <;> rfl

theorem iteration_same (i : Nat) {l : LoopState V H} {l' : LoopState V H'} (h : SameRun c s l l') :
    SameRun c s (relaxIteration cfg env start i l) (relaxIteration (otherConfig c s cfg) env' start i l') := by
  obtain ⟨p1, p2⟩ := unit_pos hc hs
  have st : SameSolve c s (c ^ 2 / s ^ 3 / √s) (c / √s) (env.step cfg l.state) (env'.step (otherConfig c s cfg) l'.state) := step_same p1 ht ht' cfg.solverMaxit henv.upd h.state
  obtain ⟨r1, r2, r3⟩ := residual_iff p1 ht ht' st
  have hrej : rejected (otherConfig c s cfg) (env'.step (otherConfig c s cfg) l'.state) ↔ rejected cfg (env.step cfg l.state) := by
    unfold rejected
    rw [r3]
    exact or_congr r1 Iff.rfl
  unfold relaxIteration
  rw [h.stopped]
  split
  · exact h
  · dsimp only
    by_cases hr : rejected cfg (env.step cfg l.state)
    · rw [if_pos hr, if_pos (hrej.2 hr)]
      refine ⟨?_, h.trace, rfl⟩
      refine { Bn := st.Bn, Bguess := st.Bn, dt := ?_, eta := st.eta, force := st.force, velocity := st.velocity }
      change (env'.step (otherConfig c s cfg) l'.state).dt / 2 = s ^ 6 / c ^ 2 * ((env.step cfg l.state).dt / 2)
      rw [st.dt]; ring
    · rw [if_neg hr, if_neg (fun hh => hr (hrej.1 hh))]
      have hres : (env'.step (otherConfig c s cfg) l'.state).picardResiduum = FV.scale (c / √s) (env.step cfg l.state).picardResiduum := by
        rcases st.residuum with e | ⟨e1, e2⟩
        · exact e
        · exfalso
          apply hr
          left
          rw [e1]
          exact ht
      generalize env.step cfg l.state = y at st hres
      generalize env'.step (otherConfig c s cfg) l'.state = y' at st hres
      have acc : SameLoopState c s (c ^ 2 / s ^ 3 / √s) (acceptState cfg env i y) (acceptState (otherConfig c s cfg) env' i y') ∧
          (acceptState (otherConfig c s cfg) env' i y').picardIterations = (acceptState cfg env i y).picardIterations ∧
          (acceptState (otherConfig c s cfg) env' i y').picardResiduum = FV.scale (c / √s) (acceptState cfg env i y).picardResiduum := by
        have hp : (otherConfig c s cfg).pertStrength > 0 ↔ cfg.pertStrength > 0 := by
          change 0 < c / √s * cfg.pertStrength ↔ _
          exact mul_pos_iff_of_pos_left p1
        have hq : ((i : Int) = (otherConfig c s cfg).applyPertAfter ∧ (otherConfig c s cfg).pertStrength > 0) ↔ ((i : Int) = cfg.applyPertAfter ∧ cfg.pertStrength > 0) :=
          and_congr Iff.rfl hp
        unfold acceptState
        dsimp only
        by_cases hpert : (i : Int) = cfg.applyPertAfter ∧ cfg.pertStrength > 0
        · rw [if_pos hpert, if_pos (hq.2 hpert)]
          by_cases hpre : cfg.precond = true ∧ i % cfg.precondEvery = 0
          · rw [if_pos hpre, if_pos (show (otherConfig c s cfg).precond = true ∧ i % (otherConfig c s cfg).precondEvery = 0 from hpre)]
            refine ⟨{ Bn := ?_, Bguess := st.Bguess, dt := ?_, eta := st.eta, force := st.force, velocity := st.velocity }, st.iterations, hres⟩
            · change env'.perturb y'.Bguess = c • env.perturb y.Bguess
              rw [st.Bguess, henv.perturb]
            · change (if y'.picardIterations < cfg.solverCritit then y'.dt * cfg.dtFactor else y'.dt / cfg.dtFactor ^ 2) =
                s ^ 6 / c ^ 2 * (if y.picardIterations < cfg.solverCritit then y.dt * cfg.dtFactor else y.dt / cfg.dtFactor ^ 2)
              rw [st.iterations, st.dt]
              split <;> ring
          · rw [if_neg hpre, if_neg (show ¬((otherConfig c s cfg).precond = true ∧ i % (otherConfig c s cfg).precondEvery = 0) from hpre)]
            refine ⟨{ Bn := ?_, Bguess := st.Bguess, dt := ?_, eta := st.eta, force := st.force, velocity := st.velocity }, st.iterations, hres⟩
            · change env'.perturb y'.Bguess = c • env.perturb y.Bguess
              rw [st.Bguess, henv.perturb]
            · change (if y'.picardIterations < cfg.solverCritit then y'.dt * cfg.dtFactor else y'.dt / cfg.dtFactor ^ 2) =
                s ^ 6 / c ^ 2 * (if y.picardIterations < cfg.solverCritit then y.dt * cfg.dtFactor else y.dt / cfg.dtFactor ^ 2)
              rw [st.iterations, st.dt]
              split <;> ring
        · rw [if_neg hpert, if_neg (fun hh => hpert (hq.1 hh))]
          by_cases hpre : cfg.precond = true ∧ i % cfg.precondEvery = 0
          · rw [if_pos hpre, if_pos (show (otherConfig c s cfg).precond = true ∧ i % (otherConfig c s cfg).precondEvery = 0 from hpre)]
            refine ⟨{ Bn := st.Bguess, Bguess := st.Bguess, dt := ?_, eta := st.eta, force := st.force, velocity := st.velocity }, st.iterations, hres⟩
            change (if y'.picardIterations < cfg.solverCritit then y'.dt * cfg.dtFactor else y'.dt / cfg.dtFactor ^ 2) =
                s ^ 6 / c ^ 2 * (if y.picardIterations < cfg.solverCritit then y.dt * cfg.dtFactor else y.dt / cfg.dtFactor ^ 2)
            rw [st.iterations, st.dt]
            split <;> ring
          · rw [if_neg hpre, if_neg (show ¬((otherConfig c s cfg).precond = true ∧ i % (otherConfig c s cfg).precondEvery = 0) from hpre)]
            refine ⟨{ Bn := st.Bguess, Bguess := st.Bguess, dt := ?_, eta := st.eta, force := st.force, velocity := st.velocity }, st.iterations, hres⟩
            change (if y'.picardIterations < cfg.solverCritit then y'.dt * cfg.dtFactor else y'.dt / cfg.dtFactor ^ 2) =
                s ^ 6 / c ^ 2 * (if y.picardIterations < cfg.solverCritit then y.dt * cfg.dtFactor else y.dt / cfg.dtFactor ^ 2)
            rw [st.iterations, st.dt]
            split <;> ring
      obtain ⟨a1, a2, a3⟩ := acc
      generalize acceptState cfg env i y = z at a1 a2 a3
      generalize acceptState (otherConfig c s cfg) env' i y' = z' at a1 a2 a3
      have tr : SameTrace c s (record cfg env start i z l.trace) (record (otherConfig c s cfg) env' start i z' l'.trace) := by
        unfold record
        by_cases hsave : i % cfg.saveEvery = 0 ∨ i = cfg.maxit
        · rw [if_pos hsave, if_pos (show i % (otherConfig c s cfg).saveEvery = 0 ∨ i = (otherConfig c s cfg).maxit from hsave), a2]
          have e : env'.clock i = env.clock i := by rw [henv.clock]
          rw [e]
          refine append_same hc hs h.trace start i _ _ a1.force ?_ ?_ ?_ a1.velocity a3 a1.dt ?_
          · rw [a1.Bn, henv.energy]
          · rw [a1.Bn, henv.helicity]
          · rw [a1.Bn, henv.divergence]
          · change (if cfg.saveB then some z'.Bn else none) = _
            rw [a1.Bn]
            split <;> rfl
        · rw [if_neg hsave, if_neg (show ¬(i % (otherConfig c s cfg).saveEvery = 0 ∨ i = (otherConfig c s cfg).maxit) from hsave)]
          exact h.trace
      refine ⟨a1, tr, ?_⟩
      refine decide_eq_decide.2 ?_
      rw [tr.force]
      generalize (record cfg env start i z l.trace).force = L
      have : (L.map (FV.scale (c ^ 2 / s ^ 3 / √s))).getLastD .nan = FV.scale (c ^ 2 / s ^ 3 / √s) (L.getLastD .nan) := by
        rw [List.getLastD_eq_getLast?, List.getLast?_map, List.getLastD_eq_getLast?]
        cases L.getLast? <;> rfl
      rw [this]
      exact FV.scale_lt p2 _ _

theorem run_same {x : State V H} {x' : State V H'} (hx : SameLoopState c s (c ^ 2 / s ^ 3 / √s) x x') {t t' : Trace V} (h : SameTrace c s t t') (k : Nat) :
    SameRun c s (relaxAfter cfg env start x t k) (relaxAfter (otherConfig c s cfg) env' start x' t' k) := by
  induction k with
  | zero => exact init_same hc hs ht ht' henv start hx h
  | succ k ih => exact iteration_same hc hs ht ht' henv start (k + 1) ih

end

end Mrx.Props
