import Verif.Model.Figures
import Verif.Props.Sweep
import Verif.Props.Energy
import Verif.Props.Relaxation

/-!
# C102: the trace figures of a run
-/

set_option linter.unusedVariables false
set_option linter.unusedSectionVars false

namespace Mrx.Props
open Mrx IO Figures Matrix

/-- The directory part of a path: everything up to and including the last slash. -/
def dirPart (p : PyStr) : PyStr := (p.reverse.dropWhile (· ≠ '/')).reverse

theorem dirPart_append {x s : PyStr} (hs : ∀ c ∈ s, c ≠ '/') : dirPart (x ++ s) = dirPart x := by
  unfold dirPart
  rw [List.reverse_append, List.dropWhile_append_of_pos]
  intro a ha
  simpa using hs a (List.mem_reverse.1 ha)

theorem dirPart_slash {x s : PyStr} (hs : ∀ c ∈ s, c ≠ '/') : dirPart (x ++ '/' :: s) = x ++ ['/'] := by
  have : x ++ '/' :: s = (x ++ ['/']) ++ s := by simp
  rw [this, dirPart_append hs]
  unfold dirPart
  simp

theorem dirPart_length (x : PyStr) : (dirPart x).length ≤ x.length := by
  unfold dirPart
  rw [List.length_reverse]
  exact (List.dropWhile_suffix _).length_le.trans (by simp)

/-- **C102** `trace_plot` returns without error exactly when the six traces it needs are there, the four drawn against the iterations and the
two drawn against the wall time have matching lengths, and no trace it subtracts the first entry of is empty. -/
theorem C102_returns_iff (d : PyDict (List FV)) (filename : PyStr) :
    (tracePlot d filename).2 = none ↔ ∃ it f h dv v w, d.get? "iterations".toList = some it ∧ d.get? "force_trace".toList = some f ∧
      d.get? "helicity_trace".toList = some h ∧ d.get? "divergence_trace".toList = some dv ∧ d.get? "velocity_trace".toList = some v ∧
      d.get? "wall_time_trace".toList = some w ∧ d.get? "energy_trace".toList ≠ some [] ∧ h ≠ [] ∧ dv ≠ [] ∧
      f.length = it.length ∧ v.length = it.length ∧ h.length = it.length ∧ dv.length = w.length := by
  have force : ∀ it f h dv v w, (∃ fig, forceFigure filename it f h dv v w = .ok fig) ↔
      (h ≠ [] ∧ dv ≠ [] ∧ f.length = it.length ∧ v.length = it.length ∧ h.length = it.length ∧ dv.length = w.length) := by
    intro it f h dv v w
    unfold forceFigure plot
    cases h with
    | nil => simp [first]
    | cons h0 h =>
      simp only [first]
      by_cases h1 : it.length = f.length
      · rw [if_pos h1]
        by_cases h2 : it.length = v.length
        · simp only [if_pos h2]
          by_cases h3 : it.length = (List.map (fun x => (x.sub h0).abs) (h0 :: h)).length
          · simp only [if_pos h3]
            rw [List.length_map] at h3
            cases dv with
            | nil => simp [first]
            | cons d0 dv =>
              simp only [first]
              by_cases h4 : w.length = (List.map (fun x => x.sub d0) (d0 :: dv)).length
              · simp only [if_pos h4]
                rw [List.length_map] at h4
                simp [h1, h2 ▸ h1, h4, ← h3, ← h2]
              · simp only [if_neg h4]
                rw [List.length_map] at h4
                simp only [reduceCtorEq, exists_false, false_iff, not_and]
                intro _ _ _ _ _ h
                exact h4 h.symm
          · simp only [if_neg h3]
            rw [List.length_map] at h3
            simp only [reduceCtorEq, exists_false, false_iff, not_and]
            intro _ _ _ _ h
            exact absurd h.symm h3
        · simp only [if_neg h2, reduceCtorEq, exists_false, false_iff, not_and]
          intro _ _ _ h
          exact absurd h.symm h2
      · rw [if_neg h1]
        simp only [reduceCtorEq, exists_false, false_iff, not_and]
        intro _ _ h
        exact absurd h.symm h1
  have key : ∀ (k : String), (∃ v, item d k = .ok v ∧ d.get? k.toList = some v) ∨ (item d k = .error .keyError ∧ d.get? k.toList = none) := by
    intro k
    unfold item
    cases d.get? k.toList with
    | none => exact Or.inr ⟨rfl, rfl⟩
    | some v => exact Or.inl ⟨v, rfl, rfl⟩
  unfold tracePlot
  rcases key "iterations" with ⟨it, e1, g1⟩ | ⟨e1, g1⟩
  case inr => exact iff_of_false (by simp [e1]) fun ⟨_, _, _, _, _, _, a1, a2, a3, a4, a5, a6, _⟩ => by rw [g1] at a1; cases a1
  rcases key "force_trace" with ⟨f, e2, g2⟩ | ⟨e2, g2⟩
  case inr => exact iff_of_false (by simp [e1, e2]) fun ⟨_, _, _, _, _, _, a1, a2, a3, a4, a5, a6, _⟩ => by rw [g2] at a2; cases a2
  rcases key "helicity_trace" with ⟨h, e3, g3⟩ | ⟨e3, g3⟩
  case inr => exact iff_of_false (by simp [e1, e2, e3]) fun ⟨_, _, _, _, _, _, a1, a2, a3, a4, a5, a6, _⟩ => by rw [g3] at a3; cases a3
  rcases key "divergence_trace" with ⟨dv, e4, g4⟩ | ⟨e4, g4⟩
  case inr => exact iff_of_false (by simp [e1, e2, e3, e4]) fun ⟨_, _, _, _, _, _, a1, a2, a3, a4, a5, a6, _⟩ => by rw [g4] at a4; cases a4
  rcases key "velocity_trace" with ⟨v, e5, g5⟩ | ⟨e5, g5⟩
  case inr => exact iff_of_false (by simp [e1, e2, e3, e4, e5]) fun ⟨_, _, _, _, _, _, a1, a2, a3, a4, a5, a6, _⟩ => by rw [g5] at a5; cases a5
  rcases key "wall_time_trace" with ⟨w, e6, g6⟩ | ⟨e6, g6⟩
  case inr => exact iff_of_false (by simp [e1, e2, e3, e4, e5, e6]) fun ⟨_, _, _, _, _, _, a1, a2, a3, a4, a5, a6, _⟩ => by rw [g6] at a6; cases a6
  have hf := force it f h dv v w
  have rhs : (∃ it f h dv v w, d.get? "iterations".toList = some it ∧ d.get? "force_trace".toList = some f ∧
      d.get? "helicity_trace".toList = some h ∧ d.get? "divergence_trace".toList = some dv ∧ d.get? "velocity_trace".toList = some v ∧
      d.get? "wall_time_trace".toList = some w ∧ d.get? "energy_trace".toList ≠ some [] ∧ h ≠ [] ∧ dv ≠ [] ∧
      f.length = it.length ∧ v.length = it.length ∧ h.length = it.length ∧ dv.length = w.length) ↔
      d.get? "energy_trace".toList ≠ some [] ∧ ∃ fig, forceFigure filename it f h dv v w = .ok fig := by
    rw [hf, g1, g2, g3, g4, g5, g6]
    constructor
    · rintro ⟨_, _, _, _, _, _, a1, a2, a3, a4, a5, a6, a7⟩
      cases a1; cases a2; cases a3; cases a4; cases a5; cases a6
      exact a7
    · intro h
      exact ⟨_, _, _, _, _, _, rfl, rfl, rfl, rfl, rfl, rfl, h⟩
  rw [rhs, e1, e2, e3, e4, e5, e6]
  dsimp only
  cases forceFigure filename it f h dv v w with
  | error e =>
    cases d.get? "energy_trace".toList with
    | none => simp
    | some E => cases E <;> simp [energyFigure, first]
  | ok fig =>
    cases d.get? "energy_trace".toList with
    | none => simp
    | some E => cases E <;> simp [energyFigure, first]

theorem same_directory (filename : PyStr) :
    dirPart (filename ++ "energy_trace.pdf".toList) = dirPart (dropSlash filename ++ "/force_trace.pdf".toList) ↔
      filename.getLast? = some '/' := by
  have h1 : dirPart (filename ++ "energy_trace.pdf".toList) = dirPart filename := dirPart_append (by decide)
  have h2 : dirPart (dropSlash filename ++ "/force_trace.pdf".toList) = dropSlash filename ++ ['/'] := by
    have : "/force_trace.pdf".toList = '/' :: "force_trace.pdf".toList := by decide
    rw [this, dirPart_slash (by decide)]
  rw [h1, h2]
  unfold dropSlash
  by_cases h : filename.getLast? = some '/'
  · rw [if_pos h]
    obtain ⟨l, rfl⟩ : ∃ l, filename = l ++ ['/'] := by
      obtain ⟨l, x, e⟩ := List.getLast?_eq_some_iff.1 h
      exact ⟨l, by simpa using e⟩
    simp [dirPart]
  · rw [if_neg h]
    refine ⟨fun e => ?_, fun e => absurd e h⟩
    have := dirPart_length filename
    rw [e] at this
    simp at this

/-- **C102** the two figures a call saves are written to the same directory exactly when `filename` ends with a slash; otherwise the energy figure
goes next to the directory `filename` and the force figure into it. -/
theorem C102_same_directory_iff (d : PyDict (List FV)) (filename : PyStr) (f1 f2 : Figure) (r : Option PlotErr)
    (h : tracePlot d filename = ([f1, f2], r)) :
    (dirPart f1.file = dirPart f2.file ↔ filename.getLast? = some '/') ∧
    (filename.getLast? ≠ some '/' → dirPart f1.file = dirPart filename ∧ dirPart f2.file = filename ++ ['/']) := by
  have hf : f1.file = filename ++ "energy_trace.pdf".toList ∧ f2.file = dropSlash filename ++ "/force_trace.pdf".toList := by
    have files : ∀ it f h dv v w fig, forceFigure filename it f h dv v w = .ok fig → fig.file = dropSlash filename ++ "/force_trace.pdf".toList := by
      intro it f h dv v w fig e
      unfold forceFigure at e
      repeat' split at e
      all_goals first | (cases e; rfl) | cases e
    have fileE : ∀ E fig, energyFigure filename E = .ok fig → fig.file = filename ++ "energy_trace.pdf".toList := by
      intro E fig e
      unfold energyFigure at e
      repeat' split at e
      all_goals first | (cases e; rfl) | cases e
    unfold tracePlot at h
    repeat' split at h
    all_goals simp only [Prod.mk.injEq, List.cons.injEq, reduceCtorEq, and_true, and_false, false_and] at h
    obtain ⟨⟨rfl, rfl⟩, -⟩ := h
    exact ⟨fileE _ _ (by assumption), files _ _ _ _ _ _ _ (by assumption)⟩
  rw [hf.1, hf.2]
  refine ⟨same_directory filename, fun hn => ⟨dirPart_append (by decide), ?_⟩⟩
  have : "/force_trace.pdf".toList = '/' :: "force_trace.pdf".toList := by decide
  rw [this, dirPart_slash (by decide), dropSlash, if_neg hn]

section
variable {V H : Type} (cfg : RelaxConfig) (env : RelaxEnv V H) (start : ℝ)

/-- **C102** the figures of any run of `run_relaxation_loop`, after any number of iterations: `trace_plot` on its traces returns without error
and saves two figures. Point number `i` of the energy figure is the energy of the first field minus that of the `i`-th recorded field; the force
figure shows, against the recorded iteration numbers, the recorded forces, velocities and the absolute changes of the helicity, and against the
recorded wall times the divergence norms minus the first one. -/
theorem C102_run_figures (s : State V H) (k : Nat) (filename : PyStr) :
    let L := savedIterations cfg env start s (emptyTrace V) k
    let st := fun i => (relaxAfter cfg env start s (emptyTrace V) i).state
    let its : List FV := .fin 0 :: L.map fun i : Nat => .fin (i : ℝ)
    tracePlot (traceDatasets (relaxAfter cfg env start s (emptyTrace V) k).trace) filename =
      ([⟨filename ++ "energy_trace.pdf".toList,
          [⟨(List.range (L.length + 1)).map fun i : Nat => .fin (i : ℝ),
            (env.energy s.Bn).sub (env.energy s.Bn) :: L.map fun i => (env.energy s.Bn).sub (env.energy (st i).Bn)⟩], []⟩,
        ⟨dropSlash filename ++ "/force_trace.pdf".toList,
          [⟨its, (env.step cfg s).forceNorm :: L.map fun i => (st i).forceNorm⟩,
           ⟨its, (env.step cfg s).velocityNorm :: L.map fun i => (st i).velocityNorm⟩,
           ⟨its, ((env.helicity s.Bn).sub (env.helicity s.Bn)).abs :: L.map fun i => ((env.helicity (st i).Bn).sub (env.helicity s.Bn)).abs⟩],
          [⟨.fin (env.clock 0 - start) :: L.map fun i => .fin (env.clock i - start),
            (env.divergence s.Bn).sub (env.divergence s.Bn) :: L.map fun i => (env.divergence (st i).Bn).sub (env.divergence s.Bn)⟩]⟩], none) := by
  intro L st its
  obtain ⟨h1, h2, h3, h4, h5, h6, -, -, -, h7⟩ := C58_dataset_contents cfg env start s k
  unfold tracePlot item
  beta_reduce at h1 h2 h3 h4 h5 h6 h7
  rw [h1, h2, h3, h4, h5, h6, h7]
  simp [energyFigure, forceFigure, first, plot, its, L, st, Function.comp_def]

end

/-- **C102** the curve labelled as the norm of the divergence shows the recorded norms exactly when the field the run starts from is
divergence-free; otherwise every point is lowered by its norm. -/
theorem C102_divergence_curve_iff {T : Stepper} (cfg : RelaxConfig) (strength : ℝ) (dB : V3 → V3) (clock : Nat → ℝ) (start : ℝ) (s : T.St) (k : Nat)
    (filename : PyStr) :
    let t := (relaxAfter cfg (T.env strength dB clock) start s (emptyTrace _) k).trace
    (∃ f1 f2 xs, tracePlot (traceDatasets t) filename = ([f1, f2], none) ∧ f2.top = [⟨xs, t.divergence⟩]) ↔ T.D.divergenceNorm s.Bn = 0 := by
  intro t
  have h := C102_run_figures cfg (T.env strength dB clock) start s k filename
  have hd : t.divergence = _ :=
    Option.some.inj ((show some t.divergence = PyDict.get? (traceDatasets t) "divergence_trace".toList from rfl).trans
      (C58_dataset_contents cfg (T.env strength dB clock) start s k).2.2.2.2.2.1)
  beta_reduce at h
  dsimp only at h
  constructor
  · rintro ⟨f1, f2, xs, e, e2⟩
    rw [h] at e
    simp only [Prod.mk.injEq, List.cons.injEq, and_true] at e
    obtain ⟨-, rfl⟩ := e
    rw [hd] at e2
    simp only [List.cons.injEq, Line.mk.injEq, and_true] at e2
    have := e2.2.1
    simp only [Stepper.env, FV.sub, FV.neg, FV.add, FV.fin.injEq] at this
    linarith
  · intro h0
    refine ⟨_, _, .fin (clock 0 - start) :: (savedIterations cfg (T.env strength dB clock) start s (emptyTrace _) k).map fun i => .fin (clock i - start), h, ?_⟩
    rw [hd]
    simp only [List.cons.injEq, Line.mk.injEq, and_true, true_and]
    refine ⟨?_, ?_, ?_⟩
    · simp [Stepper.env]
    · simp [Stepper.env, FV.sub, FV.neg, FV.add, h0]
    · apply List.map_congr_left
      intro i _
      simp only [Stepper.env, FV.sub, FV.neg, FV.add, h0, neg_zero, add_zero]

/-- **C102** the energy figure of a run in which no recorded field has more energy than the first one shows only non-negative numbers, the first of
which is zero; a field with more energy than the first appears with a negative number (which logarithmic axes do not show). -/
theorem C102_energy_curve {T : Stepper} (cfg : RelaxConfig) (strength : ℝ) (dB : V3 → V3) (clock : Nat → ℝ) (start : ℝ) (s : T.St) (k : Nat)
    (filename : PyStr) :
    let L := savedIterations cfg (T.env strength dB clock) start s (emptyTrace _) k
    let B := fun i => (relaxAfter cfg (T.env strength dB clock) start s (emptyTrace _) i).state.Bn
    ∃ f1 f2 xs, tracePlot (traceDatasets (relaxAfter cfg (T.env strength dB clock) start s (emptyTrace _) k).trace) filename = ([f1, f2], none) ∧
      f1.main = [⟨xs, .fin 0 :: L.map fun i => .fin (T.D.energy s.Bn - T.D.energy (B i))⟩] ∧ xs.length = L.length + 1 ∧
      ((∀ y ∈ L.map (fun i => T.D.energy s.Bn - T.D.energy (B i)), 0 ≤ y) ↔ ∀ i ∈ L, T.D.energy (B i) ≤ T.D.energy s.Bn) := by
  intro L B
  have h := C102_run_figures cfg (T.env strength dB clock) start s k filename
  beta_reduce at h
  dsimp only at h
  refine ⟨_, _, (List.range (L.length + 1)).map fun i : Nat => .fin (i : ℝ), h, ?_, ?_, ?_⟩
  · simp only [List.cons.injEq, Line.mk.injEq, and_true, true_and]
    refine ⟨by simp only [L], by simp [Stepper.env, FV.sub, FV.neg, FV.add], ?_⟩
    apply List.map_congr_left
    intro i _
    simp only [Stepper.env, FV.sub, FV.neg, FV.add, B, sub_eq_add_neg]
  · simp [L]
  · simp [L, B]

/-- **C102** the helicity curve of a run starts at zero, and every further point is the absolute value of the difference between the helicity of the recorded field and that of the first one. -/
theorem C102_helicity_curve {T : Stepper} (cfg : RelaxConfig) (strength : ℝ) (dB : V3 → V3) (clock : Nat → ℝ) (start : ℝ) (s : T.St) (k : Nat)
    (filename : PyStr) :
    let L := savedIterations cfg (T.env strength dB clock) start s (emptyTrace _) k
    let B := fun i => (relaxAfter cfg (T.env strength dB clock) start s (emptyTrace _) i).state.Bn
    ∃ f1 f2, tracePlot (traceDatasets (relaxAfter cfg (T.env strength dB clock) start s (emptyTrace _) k).trace) filename = ([f1, f2], none) ∧
      (f2.main[2]?).map Line.ys = some (.fin 0 :: L.map fun i => .fin |T.D.helicity (B i) - T.D.helicity s.Bn|) := by
  intro L B
  have h := C102_run_figures cfg (T.env strength dB clock) start s k filename
  beta_reduce at h
  dsimp only at h
  refine ⟨_, _, h, ?_⟩
  simp only [List.getElem?_cons_succ, List.getElem?_cons_zero, Option.map_some, Option.some.injEq, List.cons.injEq]
  refine ⟨by simp [Stepper.env, FV.sub, FV.neg, FV.add, FV.abs], ?_⟩
  apply List.map_congr_left
  intro i _
  simp only [Stepper.env, FV.sub, FV.neg, FV.add, FV.abs, B, sub_eq_add_neg]

/-- Cases: a run of the standard case, a directory, a name without a slash and a dictionary without traces. -/
example (polar : Bool) (cfg strength dB clock start) := C102_run_figures cfg ((Case.T polar 1 false false).env strength dB clock) start (Case.s polar 1 false false 1) 7
  "out/".toList
example (polar : Bool) (cfg strength dB clock start) : ∃ f1 f2 xs, tracePlot (traceDatasets (relaxAfter cfg ((Case.T polar 1 false false).env strength dB clock) start
    (Case.s polar 1 false false 1) (emptyTrace _) 7).trace) "out/".toList = ([f1, f2], none) ∧
      f2.top = [⟨xs, (relaxAfter cfg ((Case.T polar 1 false false).env strength dB clock) start (Case.s polar 1 false false 1) (emptyTrace _) 7).trace.divergence⟩] :=
  (C102_divergence_curve_iff cfg strength dB clock start (Case.s polar 1 false false 1) 7 "out/".toList).2 (by
    have := (Case.s_spec polar 1 false false 1).2.2.2.2.1
    simp [DeRham.divergenceNorm, this])
example : "out/".toList.getLast? = some '/' ∧ "out".toList.getLast? ≠ some '/' := by decide
example (filename) : (tracePlot [] filename).2 = some .keyError := rfl

end Mrx.Props
