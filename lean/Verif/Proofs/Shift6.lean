import Verif.Proofs.Shift4
import Verif.Proofs.Loop
import Verif.Props.UnitsRun

/-! # Runs from permuted states -/

set_option linter.unusedSectionVars false
set_option linter.unusedVariables false

namespace Mrx
open Matrix Spec Props

section loop
variable {V H : Type} (φ : V → V) (ψ : H → H)

/-- A state with its arrays mapped. -/
def State.map (s : State V H) : State V H := { s with Bn := φ s.Bn, Bguess := φ s.Bguess, hessian := ψ s.hessian }

/-- A trace with its fields mapped. -/
def Trace.map (t : Trace V) : Trace V := { t with Bfields := t.Bfields.map φ }

/-- The loop variables with their arrays mapped. -/
def LoopState.map (l : LoopState V H) : LoopState V H := ⟨l.state.map φ ψ, l.trace.map φ, l.stopped⟩

theorem whileLoop_map {σ : Type} (f : σ → σ) {cond : σ → Prop} {body : σ → σ} (hc : ∀ a, cond (f a) ↔ cond a) (hb : ∀ a, body (f a) = f (body a)) :
    ∀ (fuel : Nat) (a : σ), whileLoop cond body fuel (f a) = (whileLoop cond body fuel a).map f
  | 0, a => rfl
  | fuel + 1, a => by
    unfold whileLoop
    by_cases h : cond a
    · rw [if_pos h, if_pos ((hc a).2 h), hb, whileLoop_map f hc hb fuel]
    · rw [if_neg h, if_neg (fun e => h ((hc a).1 e))]; rfl

/-- The computations commute with the maps. -/
structure Commutes (cfg : RelaxConfig) (env : RelaxEnv V H) : Prop where
  updB : ∀ s, (env.upd (s.map φ ψ)).B = φ (env.upd s).B
  residuum : ∀ s, (env.upd (s.map φ ψ)).residuum = (env.upd s).residuum
  force : ∀ s, (env.upd (s.map φ ψ)).force = (env.upd s).force
  velocity : ∀ s, (env.upd (s.map φ ψ)).velocity = (env.upd s).velocity
  energy : ∀ B, env.energy (φ B) = env.energy B
  helicity : ∀ B, env.helicity (φ B) = env.helicity B
  divergence : ∀ B, env.divergence (φ B) = env.divergence B
  hessian : ∀ B, env.hessian (φ B) = ψ (env.hessian B)
  perturb : 0 < cfg.pertStrength → ∀ B, env.perturb (φ B) = φ (env.perturb B)

variable {φ ψ} {env : RelaxEnv V H} {cfg : RelaxConfig}

theorem step_map (tol : ℝ) (maxit : Int) (h : Commutes φ ψ cfg env) (s : State V H) : step env.upd tol maxit (s.map φ ψ) = (step env.upd tol maxit s).map φ ψ := by
  obtain ⟨r, hr⟩ := stepper_some env.upd tol maxit s
  have e : stepperSolve env.upd tol maxit (s.map φ ψ) (maxit.toNat + 1) = some (r.map φ ψ) := by
    have := whileLoop_map (State.map φ ψ) (cond := stepperCond tol maxit) (body := midpointResiduum env.upd) (fun a => Iff.rfl) (fun a => by
      unfold midpointResiduum State.map
      have e1 := h.updB a
      have e2 := h.residuum a
      have e3 := h.force a
      have e4 := h.velocity a
      unfold State.map at e1 e2 e3 e4
      simp only [e1, e2, e3, e4]) (maxit.toNat + 1) { s with picardResiduum := .fin 1, picardIterations := 0 }
    unfold stepperSolve at hr ⊢
    rw [hr] at this
    exact this
  unfold step
  rw [e, hr]
  rfl

theorem append_map (t : Trace V) (start : ℝ) (i : Nat) (f E Hel dvg v : FV) (pi : Int) (e : FV) (dt time : ℝ) (B : Option V) :
    (t.map φ).append start i f E Hel dvg v pi e dt time (B.map φ) = (t.append start i f E Hel dvg v pi e dt time B).map φ := by
  cases B <;> simp [Trace.append, Trace.map]

theorem saved_map (b : Bool) (B : V) : (if b then some (φ B) else none) = (if b then some B else none : Option V).map φ := by cases b <;> rfl

theorem accept_map (h : Commutes φ ψ cfg env) (i : Nat) (s : State V H) : acceptState cfg env i (s.map φ ψ) = (acceptState cfg env i s).map φ ψ := by
  unfold acceptState
  have e1 : (s.map φ ψ).updateBn (s.map φ ψ).Bguess = (s.updateBn s.Bguess).map φ ψ := rfl
  simp only [e1]
  generalize s.updateBn s.Bguess = s1
  have e2 : 0 < cfg.pertStrength → (s1.map φ ψ).updateBn (env.perturb (s1.map φ ψ).Bn) = (s1.updateBn (env.perturb s1.Bn)).map φ ψ := by
    intro hp
    change { s1.map φ ψ with Bn := env.perturb (φ s1.Bn) } = _
    rw [h.perturb hp]; rfl
  have e2' : (if (i : Int) = cfg.applyPertAfter ∧ cfg.pertStrength > 0 then (s1.map φ ψ).updateBn (env.perturb (s1.map φ ψ).Bn) else s1.map φ ψ) =
      (if (i : Int) = cfg.applyPertAfter ∧ cfg.pertStrength > 0 then s1.updateBn (env.perturb s1.Bn) else s1).map φ ψ := by
    split
    next hc => exact e2 hc.2
    next => rfl
  rw [e2']
  generalize (if (i : Int) = cfg.applyPertAfter ∧ cfg.pertStrength > 0 then s1.updateBn (env.perturb s1.Bn) else s1) = s2
  have e3 : (s2.map φ ψ).updateHessian (env.hessian (s2.map φ ψ).Bn) = (s2.updateHessian (env.hessian s2.Bn)).map φ ψ := by
    change { s2.map φ ψ with hessian := env.hessian (φ s2.Bn) } = _
    rw [h.hessian]; rfl
  rw [e3, ← apply_ite (State.map φ ψ)]
  rfl

theorem record_map (h : Commutes φ ψ cfg env) (start : ℝ) (i : Nat) (s : State V H) (t : Trace V) :
    record cfg env start i (s.map φ ψ) (t.map φ) = (record cfg env start i s t).map φ := by
  unfold record
  split
  · rw [show (s.map φ ψ).Bn = φ s.Bn from rfl, h.energy, h.helicity, h.divergence, saved_map, append_map]
    rfl
  · rfl

theorem iteration_map (h : Commutes φ ψ cfg env) (start : ℝ) (i : Nat) (l : LoopState V H) :
    relaxIteration cfg env start i (l.map φ ψ) = (relaxIteration cfg env start i l).map φ ψ := by
  unfold relaxIteration
  rw [show (l.map φ ψ).stopped = l.stopped from rfl]
  by_cases hs : l.stopped = true
  · rw [if_pos hs, if_pos hs]
  · rw [if_neg hs, if_neg hs]
    simp only []
    have e : env.step cfg (l.map φ ψ).state = (env.step cfg l.state).map φ ψ := step_map _ _ h _
    rw [e]
    generalize env.step cfg l.state = s
    rw [show rejected cfg (s.map φ ψ) = rejected cfg s from rfl]
    by_cases hr : rejected cfg s
    · rw [if_pos hr, if_pos hr]; rfl
    · rw [if_neg hr, if_neg hr, accept_map h, show (l.map φ ψ).trace = l.trace.map φ from rfl, record_map h]
      rfl

theorem init_map (h : Commutes φ ψ cfg env) (start : ℝ) (s : State V H) (t : Trace V) :
    relaxInit cfg env start (s.map φ ψ) (t.map φ) = (relaxInit cfg env start s t).map φ ψ := by
  unfold relaxInit
  have e : env.step cfg (s.map φ ψ) = (env.step cfg s).map φ ψ := step_map _ _ h _
  simp only [e]
  rw [show (s.map φ ψ).Bn = φ s.Bn from rfl, h.energy, h.helicity, h.divergence, saved_map, append_map]
  rfl

theorem relax_map (h : Commutes φ ψ cfg env) (start : ℝ) (s : State V H) (t : Trace V) (k : Nat) :
    relaxAfter cfg env start (s.map φ ψ) (t.map φ) k = (relaxAfter cfg env start s t k).map φ ψ := by
  induction k with
  | zero => exact init_map h start s t
  | succ k ih => unfold relaxAfter; rw [ih, iteration_map h]

end loop

/-! ## The stepper -/

/-- The shift of a Hessian. -/
def shiftHessian {n : Nat} (s : Equiv.Perm (Fin n)) (A : Matrix (Fin n) (Fin n) ℝ) : Matrix (Fin n) (Fin n) ℝ := A.submatrix s s

namespace Stepper
variable {T : Stepper} (σ : T.D.Sym) (hX : IsPinv T.D.dd3 T.pinv) (hL : T.newton = true → ∀ A b, IsLstsq A b (T.lstsq A b)) (x : T.St)

/-- The state moved by the permutation. -/
def moved (x : T.St) : T.St := x.map (fun B => B ∘ σ.s2) (shiftHessian σ.s2)

theorem Bmid_moved : T.Bmid (moved σ x) = T.Bmid x ∘ σ.s2 := rfl
theorem J_moved : T.J (moved σ x) = T.J x ∘ σ.s1 := by unfold J; rw [Bmid_moved, σ.weakCurl.mulVec]
theorem Hh_moved : T.Hh (moved σ x) = T.Hh x ∘ σ.s1 := by unfold Hh; rw [Bmid_moved, σ.P12.mulVec]
theorem JxH_moved : T.JxH (moved σ x) = T.JxH x ∘ σ.s2 := by unfold JxH; rw [J_moved, Hh_moved, σ.P1x1to2, σ.M2.inv.mulVec]

include hX

theorem f_moved : T.f (moved σ x) = T.f x ∘ σ.s2 := by
  unfold f
  rw [JxH_moved]
  split
  · rfl
  · rw [(σ.leray hX).mulVec]

theorem u0_moved : T.u0 (moved σ x) = T.u0 x ∘ σ.s2 := by
  unfold u0
  rw [f_moved σ hX]
  have e : ∀ (v : Fin T.D.m2 → ℝ), (1 + T.D.dd2)⁻¹ *ᵥ (v ∘ σ.s2) = ((1 + T.D.dd2)⁻¹ *ᵥ v) ∘ σ.s2 := (Inv.one.add σ.dd2).inv.mulVec
  generalize T.f x = v
  generalize T.gamma = g
  induction g generalizing v with
  | zero => rfl
  | succ g ih => rw [Function.iterate_succ_apply, Function.iterate_succ_apply, e, ih]

include hL

theorem u_moved : T.u (moved σ x) = T.u x ∘ σ.s2 := by
  unfold u
  split
  next hn =>
    rw [u0_moved σ hX, σ.M2.mulVec, (σ.leray hX).tr.mulVec, ← (σ.leray hX).mulVec]
    congr 1
    exact lstsq_unique (hL hn _ _) (lstsq_shift σ.s2 (hL hn _ _))
  next => exact u0_moved σ hX x

theorem E_moved : T.E (moved σ x) = T.E x ∘ σ.s1 := by
  unfold E
  rw [u_moved σ hX hL, Hh_moved, J_moved, σ.P2x1to1, σ.M1.inv.mulVec]
  rfl

theorem Bnext_moved : T.Bnext (moved σ x) = T.Bnext x ∘ σ.s2 := by
  unfold Bnext
  rw [E_moved σ hX hL, σ.strongCurl.mulVec]
  rfl

theorem commutes {cfg : RelaxConfig} (strength : ℝ) {dB : V3 → V3} (hd : 0 < cfg.pertStrength → T.D.projector2 dB ∘ σ.s2 = T.D.projector2 dB) (clock : Nat → ℝ) :
    Commutes (fun B => B ∘ σ.s2) (shiftHessian σ.s2) cfg (T.env strength dB clock) where
  updB := Bnext_moved σ hX hL
  residuum s := by
    change FV.fin (T.D.norm2 (T.Bnext (moved σ s) - s.Bguess ∘ σ.s2)) = .fin (T.D.norm2 (T.Bnext s - s.Bguess))
    rw [Bnext_moved σ hX hL, show T.Bnext s ∘ σ.s2 - s.Bguess ∘ σ.s2 = (T.Bnext s - s.Bguess) ∘ σ.s2 from rfl, σ.norm2]
  force s := by
    change FV.fin (T.D.norm2 (T.f (moved σ s))) = .fin (T.D.norm2 (T.f s))
    rw [f_moved σ hX, σ.norm2]
  velocity s := by
    change FV.fin (T.D.norm2 (T.u (moved σ s))) = .fin (T.D.norm2 (T.u s))
    rw [u_moved σ hX hL, σ.norm2]
  energy B := congrArg FV.fin (σ.energy B)
  helicity B := congrArg FV.fin (σ.helicity B)
  divergence B := congrArg FV.fin (σ.divergenceNorm B)
  hessian B := σ.hessian B
  perturb hp B := by
    change T.perturb strength dB (B ∘ σ.s2) = T.perturb strength dB B ∘ σ.s2
    unfold perturb
    simp only []
    have e : T.D.leray T.pinv *ᵥ (T.D.M2⁻¹ *ᵥ T.D.projector2 dB) = (T.D.leray T.pinv *ᵥ (T.D.M2⁻¹ *ᵥ T.D.projector2 dB)) ∘ σ.s2 := by
      rw [← (σ.leray hX).mulVec, ← σ.M2.inv.mulVec, hd hp]
    generalize T.D.leray T.pinv *ᵥ (T.D.M2⁻¹ *ᵥ T.D.projector2 dB) = d at e
    have e' : ∀ i, d (σ.s2 i) = d i := fun i => (congrFun e i).symm
    funext i
    simp [Function.comp, e']

end Stepper
end Mrx
