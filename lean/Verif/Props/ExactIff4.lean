import Verif.Props.Solvers
import Verif.Props.Relaxation
import Verif.Props.Objects
import Verif.Props.IO
import Verif.Props.Poincare
import Verif.Props.SavedPlots

/-!
# Exact domains, part 4: solver flags, objects, command line, Poincaré sections, saved plots

For the properties C41, C52, C54, C55, C66, C92 the code is right for some inputs or histories and wrong for the
others; the theorems here separate the two.
-/

set_option linter.unusedSectionVars false
set_option linter.unusedVariables false

namespace Mrx.Props

open Spec

/-! ## C41: the flag of `picard_solver` -/

section
variable {X A : Type} [Arr X] {f : X × A → X × A} {maxIter : Int} {norm : X → FV} {z0 : X × A}

/-- **C41** when the returned iteration count is below the limit there are exactly two cases: iterations were made,
and the returned residual is at most the tolerance; or none was made, and the residual of `f(z_init)` is at most the
tolerance while the returned point is `f(f(z_init))`. -/
theorem C41_flag {z : X × A} {res : FV} {iters : Int} {t : ℝ}
    (h : Returns (picardSolver f (.fin t) maxIter norm z0) (z, res, iters)) (hlt : iters < maxIter) :
    res = norm (Arr.sub (f z).1 z.1) ∧
    ((0 < iters ∧ res.le (.fin t)) ∨
      (iters = 0 ∧ z = f (f z0) ∧ (norm (Arr.sub (f (f z0)).1 (f z0).1)).le (.fin t))) := by
  refine ⟨C41_residual_of_returned h, ?_⟩
  have h0 : 0 ≤ iters := by
    obtain ⟨fuel, s, hs, e⟩ := returns_inv h
    simp only [Prod.mk.injEq] at e
    obtain ⟨-, -, rfl⟩ := e
    exact (whileLoop_inv (P := fun s : PicardState X A => 0 ≤ s.i) (by
      intro s _ h1
      simp only [picardBody]
      omega) (le_refl _) hs).1
  rcases h0.lt_or_eq with hp | he
  · exact Or.inl ⟨hp, C41_converged h hp hlt⟩
  · right
    subst he
    exact ⟨rfl, C41_no_iteration h (by omega)⟩

/-- **C41** exact domain: with a count below the limit, the returned residual is at most the tolerance exactly when
iterations were made or the residual of `f(f(z_init))` happens to be. -/
theorem C41_truthful_iff {z : X × A} {res : FV} {iters : Int} {t : ℝ}
    (h : Returns (picardSolver f (.fin t) maxIter norm z0) (z, res, iters)) (hlt : iters < maxIter) :
    res.le (.fin t) ↔ 0 < iters ∨ (norm (Arr.sub (f (f (f z0))).1 (f (f z0)).1)).le (.fin t) := by
  obtain ⟨e, hc⟩ := C41_flag h hlt
  rcases hc with ⟨a, b⟩ | ⟨a, b, -⟩
  · exact ⟨fun _ => Or.inl a, fun _ => b⟩
  · subst b
    rw [e]
    exact ⟨fun hh => Or.inr hh, fun hh => hh.resolve_left (by omega)⟩

end

/-! ## C52, C54: objects -/

section
variable {V H : Type} (d : TraceDict) (hd : Function.Injective d.lists) (cfg : RelaxConfig) (env : RelaxEnv V H) (start : ℝ)
include hd

/-- **C52** exact domain: after the run the caller's state holds the relaxed field exactly when the relaxation did
not change the field at all. -/
theorem C52_caller_iff (m m' : Mem V H) (r : Nat) (t : Trace V) (hr : r < m.nextState)
    (ht : ∀ k, m.lists (d.lists k) = Trace.vals t k) (h : pyRun cfg env d m r = .ok m') :
    (m'.states r).Bn = (relaxAfter cfg env start (m.states r) t cfg.maxit).state.Bn ↔
      (relaxAfter cfg env start (m.states r) t cfg.maxit).state.Bn = (m.states r).Bn := by
  rw [C52_caller_state_unchanged d hd cfg env m m' r t hr ht h]
  exact eq_comm

open Classical in
/-- **C52** what is saved instead: the last element of the list of saved fields is the field after the last saved
iteration (0 if none was saved). -/
theorem C52_last_saved (m m' : Mem V H) (r : Nat) (t : Trace V) (hr : r < m.nextState)
    (ht : ∀ k, m.lists (d.lists k) = Trace.vals t k) (hs : d.startTime = some start) (hB : cfg.saveB = true)
    (h : pyRun cfg env d m r = .ok m') :
    (m'.lists (d.lists .Bfields)).getLast? = some (.field (relaxAfter cfg env start (m.states r) t
      ((savedIterations cfg env start (m.states r) t cfg.maxit).getLastD 0)).state.Bn) := by
  unfold pyRun at h
  rw [hs] at h
  cases h
  have e := (pyAfter_sim d hd cfg env start m r t hr ht cfg.maxit).1.lists .Bfields
  rw [e]
  have e2 := (C50_trace cfg env start (m.states r) t cfg.maxit).2.2.2.2.2.2.2.2.2.2
  simp only [Trace.vals]
  rw [e2, if_pos hB]
  generalize savedIterations cfg env start (m.states r) t cfg.maxit = L
  rcases List.eq_nil_or_concat L with rfl | ⟨L', a, rfl⟩
  · simp [relaxAfter, relaxInit, (step_frame cfg env (m.states r)).2.1]
  · simp only [List.concat_eq_append, List.map_append, List.map_cons, List.map_nil, List.getLastD_concat, List.cons_append,
      List.nil_append]
    rw [← List.cons_append, ← List.append_assoc, List.getLast?_concat]

/-- Iterations that are not accepted leave the field as it is. -/
theorem field_unchanged (s : State V H) (t : Trace V) (j n : Nat)
    (hn : ∀ i, j < i → i ≤ j + n → ¬ Accepted cfg env start s t i) :
    (relaxAfter cfg env start s t (j + n)).state.Bn = (relaxAfter cfg env start s t j).state.Bn := by
  induction n with
  | zero => rfl
  | succ n ih =>
    have ih' := ih (fun i h1 h2 => hn i h1 (by omega))
    rw [← ih']
    have hna := hn (j + n + 1) (by omega) (by omega)
    show (relaxIteration cfg env start (j + n + 1) (relaxAfter cfg env start s t (j + n))).state.Bn = _
    unfold Accepted at hna
    rw [Nat.add_sub_cancel] at hna
    rcases hst : (relaxAfter cfg env start s t (j + n)).stopped with _ | _
    · have hr : rejected cfg (env.step cfg (relaxAfter cfg env start s t (j + n)).state) := by
        by_contra hc
        exact hna ⟨hst, (C49_accepted_iff cfg _).1 hc⟩
      exact (C49_rejected_step cfg env start (j + n + 1) _ hst hr).1
    · unfold relaxIteration
      rw [if_pos hst]

open Classical in
/-- **C52** the relaxed field is the last saved field whenever no iteration after the last saved one was accepted (in
particular if the last iteration was accepted, or all iterations are saved). -/
theorem C52_relaxed_in_trace (m m' : Mem V H) (r : Nat) (t : Trace V) (hr : r < m.nextState)
    (ht : ∀ k, m.lists (d.lists k) = Trace.vals t k) (hs : d.startTime = some start) (hB : cfg.saveB = true)
    (hacc : ∀ i, (savedIterations cfg env start (m.states r) t cfg.maxit).getLastD 0 < i → i ≤ cfg.maxit →
      ¬ Accepted cfg env start (m.states r) t i) (h : pyRun cfg env d m r = .ok m') :
    (m'.lists (d.lists .Bfields)).getLast? = some (.field (relaxAfter cfg env start (m.states r) t cfg.maxit).state.Bn) := by
  rw [C52_last_saved d hd cfg env start m m' r t hr ht hs hB h]
  have hle : (savedIterations cfg env start (m.states r) t cfg.maxit).getLastD 0 ≤ cfg.maxit := by
    rcases List.eq_nil_or_concat (savedIterations cfg env start (m.states r) t cfg.maxit) with e | ⟨L', a, e⟩
    · rw [e]; simp
    · rw [e]
      have : a ∈ savedIterations cfg env start (m.states r) t cfg.maxit := by rw [e]; simp
      simp only [savedIterations, List.mem_filter, List.mem_range'_1] at this
      simp only [List.concat_eq_append, List.getLastD_concat]
      omega
  obtain ⟨n, hn⟩ := Nat.exists_eq_add_of_le hle
  have := field_unchanged d hd cfg env start (m.states r) t _ n (fun i h1 h2 => hacc i h1 (by omega))
  rw [← hn] at this
  rw [this]

omit hd in
theorem vals_iterations_ne_nil (s : State V H) (k : Nat) :
    Trace.vals (relaxAfter cfg env start s (emptyTrace V) k).trace .iterations ≠ [] := by
  have := (C50_trace cfg env start s (emptyTrace V) k).1
  simp only [Trace.vals]
  rw [this]
  simp

/-- **C54** two runs with `default_trace_dict.copy()` are never independent: whatever they compute, the list of
iterations that the second run (and its saved file) sees is not the one it would have recorded on its own. -/
theorem C54_copy_never_independent (R1 R2 : RunSpec V H) (m : Mem V H) (h1 : R1.state < m.nextState) (h2 : R2.state < m.nextState)
    (t : Trace V) (ht : ∀ k, m.lists (d.lists k) = Trace.vals t k) :
    ∃ m', runAll d m [R1, R2] = .ok m' ∧
      m'.lists (d.lists .iterations) ≠ Trace.vals (ownTrace m R2) .iterations := by
  obtain ⟨m', e, hl⟩ := C54_runs_share_trace d hd [R1, R2] m (by
    intro R hR
    simp only [List.mem_cons, List.not_mem_nil, or_false] at hR
    rcases hR with rfl | rfl <;> assumption) t ht
  refine ⟨m', e, ?_⟩
  rw [hl]
  intro hc
  have hlen := congrArg List.length hc
  simp only [List.map_cons, List.map_nil, List.flatten_cons, List.flatten_nil, List.append_nil, List.length_append] at hlen
  have : Trace.vals (ownTrace m R1) .iterations ≠ [] := vals_iterations_ne_nil _ _ _ _ _
  exact this (List.eq_nil_of_length_eq_zero (by omega))

end

/-! ## C55: when `parse_args` raises -/

section
open Mrx.IO
variable {Fl : Type} (P : PyChars Fl)

theorem digits_none_iff (s : PyStr) : ∀ acc : Option Nat, s.foldl (digitStep P) acc = none ↔ acc = none ∨ ∃ c ∈ s, P.decimal c = none := by
  induction s with
  | nil => simp
  | cons c s ih =>
    intro acc
    rw [List.foldl_cons, ih]
    cases acc with
    | none => simp [digitStep]
    | some a =>
      cases hc : P.decimal c with
      | none => simp [digitStep, hc]
      | some b => simp [digitStep, hc]

/-- **C55** exact domain: `parse_args` raises exactly when the value of some argument consists of characters that
`isdigit` accepts but contains one that `int` does not, or is longer than `int` allows. -/
theorem C55_raises_iff (kvs : List PyStr) :
    (∃ e, parseArgs P kvs = .error e) ↔ ∃ k value, '=' ∉ k ∧ (k ++ '=' :: value) ∈ kvs ∧
      value ≠ [] ∧ (∀ c ∈ value, P.isDigit c = true) ∧
      ((∃ c ∈ value, P.decimal c = none) ∨ ∃ m, P.maxDigits = some m ∧ m < value.length) := by
  rw [C55_fails_iff]
  have key : ∀ value, (∃ e, convert P value = .error e) ↔ value ≠ [] ∧ (∀ c ∈ value, P.isDigit c = true) ∧
      ((∃ c ∈ value, P.decimal c = none) ∨ ∃ m, P.maxDigits = some m ∧ m < value.length) := by
    intro value
    have hdig : isdigit P value = true ↔ value ≠ [] ∧ ∀ c ∈ value, P.isDigit c = true := by
      unfold isdigit
      cases value <;> simp
    have hint : pyInt P value = none ↔ (∃ c ∈ value, P.decimal c = none) ∨ ∃ m, P.maxDigits = some m ∧ m < value.length := by
      unfold pyInt
      cases hm : P.maxDigits with
      | none => simp [digits_none_iff]
      | some m =>
        by_cases hl : m < value.length
        · simp [hl]
        · simp [hl, digits_none_iff]
    unfold convert
    rw [← and_assoc, ← hdig, ← hint]
    by_cases hd : isdigit P value = true
    · rw [if_pos hd]
      cases hp : pyInt P value <;> simp [hd]
    · rw [if_neg hd]
      constructor
      · rintro ⟨e, he⟩
        exfalso
        split_ifs at he with h2
        cases hf : P.float value <;> rw [hf] at he <;> simp at he
      · rintro ⟨h, -⟩; exact absurd h hd
  simp only [key]

end

/-! ## C66: planes -/

section
open Matrix

/-- **C66** exact domain of `trajectory_plane_intersections_jit`: the mask is right for all segments exactly when the
plane value is not zero. -/
theorem C66_jit_mask_iff (pv : ℝ) (axis : Fin 3) :
    (∀ p q : V3, (segmentIntersection pv axis p q).1 = true ↔ ∃ x, OnSegment p q x ∧ x axis = pv) ↔ pv ≠ 0 := by
  constructor
  · rintro h rfl
    have := (h (fun _ => -1 / 2) (fun _ => 1 / 2)).2 ⟨0, ⟨1 / 2, by norm_num, by norm_num, by
      funext i; simp only [Pi.zero_apply, Pi.add_apply, Pi.smul_apply, Pi.sub_apply, smul_eq_mul]; norm_num⟩, rfl⟩
    rw [C66_jit_plane_zero] at this
    norm_num at this
  · intro h p q
    exact C66_jit_mask h axis p q

/-- **C66** (`pv ≠ 0`) a point is reported exactly for the segments that meet the plane without lying in it, and it is
their point in the plane. -/
theorem C66_jit_point_iff {D : Nat} {pv : ℝ} (hpv : pv ≠ 0) (axis : Fin D) (p q x : Fin D → ℝ) :
    (segmentIntersection pv axis p q).2 = some x ↔ p axis ≠ q axis ∧ OnSegment p q x ∧ x axis = pv := by
  constructor
  · intro h
    obtain ⟨-, a, b⟩ := C66_jit_sound hpv axis p q x (segmentIntersection pv axis p q).1 (Prod.ext rfl h)
    refine ⟨?_, b, a⟩
    intro he
    simp only [segmentIntersection, he, sub_self, if_true] at h
    split at h <;> simp at h
  · rintro ⟨hne, ⟨t, t0, t1, rfl⟩, hx⟩
    simp only [Pi.add_apply, Pi.smul_apply, Pi.sub_apply, smul_eq_mul] at hx
    have hm := (C66_jit_mask hpv axis p q).2 ⟨_, ⟨t, t0, t1, rfl⟩, by
      simp only [Pi.add_apply, Pi.smul_apply, Pi.sub_apply, smul_eq_mul]; exact hx⟩
    have hd : p axis - q axis ≠ 0 := sub_ne_zero.2 hne
    have hd' : p axis - pv - (q axis - pv) ≠ 0 := by
      intro h0; exact hd (by linarith)
    simp only [segmentIntersection, planeDiff, if_neg hpv] at hm ⊢
    rw [if_pos hm, if_neg hd']
    have : (p axis - pv) / (p axis - pv - (q axis - pv)) = t := by
      rw [div_eq_iff hd']; linarith
    rw [this]
    rfl

/-- **C66** exact domain of `trajectory_plane_intersections_list`: a point is listed exactly if it lies on the plane and
on a segment that is not (by the absolute threshold) parallel to it. -/
theorem C66_list_iff (traj : List V3) (pp n x : V3) :
    x ∈ planeIntersectionsList traj pp n ↔ n ⬝ᵥ x = n ⬝ᵥ pp ∧ ∃ i, ∃ (hi : i + 1 < traj.length),
      OnSegment traj[i] traj[i + 1] x ∧ 1e-12 ≤ |n ⬝ᵥ (traj[i + 1] - traj[i])| := by
  constructor
  · intro h
    refine ⟨(C66_list_sound traj pp n x h).1, ?_⟩
    unfold planeIntersectionsList at h
    obtain ⟨l, hl, hx⟩ := List.mem_flatten.1 h
    obtain ⟨i, hi, rfl⟩ := List.mem_iff_getElem.1 hl
    rw [List.length_zipWith, List.length_tail] at hi
    have hi' : i + 1 < traj.length := by omega
    simp only [List.getElem_zipWith, List.getElem_tail] at hx
    unfold segmentPlane at hx
    simp only at hx
    split at hx
    · simp at hx
    · rename_i hd
      split at hx
      · rename_i ht
        rw [List.mem_singleton] at hx
        exact ⟨i, hi', ⟨_, ht.1, ht.2, hx⟩, le_of_not_gt hd⟩
      · simp at hx
  · rintro ⟨hp, i, hi, hx, hd⟩
    exact C66_list_complete traj pp n x i hi hx hp hd

/-- **C66** exact domain of `intersect_with_plane`: a reported point lies on the documented plane `n·x = offset` exactly
if the normal has length one or the offset is zero. -/
theorem C66_interp_plane_iff (normal : V3) (hn : normal ≠ 0) (offset : ℝ) (traj : Nat → V3) (N deg i : Nat) (x : V3)
    (h : interpCrossing normal offset traj N deg i = some x) :
    normal ⬝ᵥ x = offset ↔ normal ⬝ᵥ normal = 1 ∨ offset = 0 := by
  constructor
  · intro hx
    by_contra hc
    push Not at hc
    exact C66_interp_wrong_plane normal hn hc.1 hc.2 traj N deg i x h hx
  · intro hc
    have hs := C66_interp_sound normal offset traj N deg i x h
    unfold planeDistance at hs
    rw [dotProduct_smul, smul_eq_mul, dotProduct_comm x normal] at hs
    rcases hc with hc | hc
    · unfold vnorm at hs
      rw [hc, Real.sqrt_one, inv_one, one_mul] at hs
      linarith
    · subst hc
      have hpos : 0 < vnorm normal := Real.sqrt_pos.2 (by
        have := dotProduct_star_self_pos_iff.2 hn
        simpa using this)
      have : (vnorm normal)⁻¹ * (normal ⬝ᵥ x) = 0 := by linarith
      rcases mul_eq_zero.1 this with h0 | h0
      · exact absurd h0 (inv_ne_zero hpos.ne')
      · exact h0

end

/-! ## C92: plots of saved runs -/

section
open Real

/-- **C92** exact domain: a run with `eps > 0`, elongation other than one and `R_0 ≠ 0` is plotted on the domain it was
computed on exactly if it is a tokamak run with `R_0 = 1`. -/
theorem C92_domain_iff (c : DomainConfig) (hε : 0 < c.eps) (hκ : c.kappa ≠ 1) (hR0 : c.R0 ≠ 0) :
    solveDomain c = .ok (plotDomain c) ↔ c.boundaryType = "tokamak" ∧ c.R0 = 1 := by
  constructor
  swap
  · rintro ⟨a, b⟩; exact C92_domain c a b
  intro h
  have e1 : plotDomain c ![0, 0, 0] 0 = c.R0 := by
    unfold plotDomain
    change (c.R0 + cerfonA c.eps c.kappa (arcsin c.delta) 0 * 0 * cos (cerfonS c.kappa (arcsin c.delta) 0)) * cos (2 * π * 0) = _
    simp
  by_cases ht : c.boundaryType = "tokamak"
  · refine ⟨ht, ?_⟩
    by_contra hR
    obtain ⟨F, hF, hne⟩ := C92_major_radius c ht hε hR
    rw [h] at hF
    exact hne (by rw [← Except.ok.inj hF])
  exfalso
  by_cases hx : c.boundaryType = "helix"
  · unfold solveDomain at h
    rw [if_neg ht, if_pos hx] at h
    have h0 := congrFun (congrFun (Except.ok.inj h) ![0, 0, 0]) 0
    rw [e1] at h0
    have e2 : helicalMap c.eps c.hHelix c.kappa (arcsin c.delta) c.nfp ![0, 0, 0] 0 = 0 := by
      unfold helicalMap helixX
      simp
    exact hR0 (by rw [← h0, e2])
  by_cases hre : c.boundaryType = "rotating_ellipse"
  · have h' := h
    unfold solveDomain rotatingEllipseMap at h
    rw [if_neg ht, if_neg hx, if_pos hre] at h
    split_ifs at h with hn he
    have h0 := congrFun (congrFun (Except.ok.inj h) ![0, 0, 0]) 0
    rw [e1] at h0
    have e2 : rotatingEllipseF c.eps c.kappa c.nfp ![0, 0, 0] 0 = 1 := by
      have hz : (if c.nfp > 0 then (0 : ℝ) / c.nfp else 0) = 0 := by split_ifs <;> simp
      change (1 + c.eps * ellipseNu c.kappa c.nfp (if c.nfp > 0 then (0 : ℝ) / c.nfp else 0) * 0 * cos (2 * π * 0))
        * cos (2 * π * (if c.nfp > 0 then (0 : ℝ) / c.nfp else 0)) = _
      rw [hz]; simp
    have hR1 : c.R0 = 1 := by rw [← h0, e2]
    obtain ⟨F, hF, hne⟩ := (C92_wrong_domain c hε hR1).1 hre (by omega) hκ
    rw [h'] at hF
    exact hne (by rw [← Except.ok.inj hF])
  · unfold solveDomain at h
    rw [if_neg ht, if_neg hx, if_neg hre] at h
    cases h

variable {V H : Type} (cfg : RelaxConfig) (env : RelaxEnv V H) (start : ℝ)

/-- **C92** exact domain: all pictures carry the right iteration number exactly if no iteration due to be saved was
rejected before the last saved one. -/
theorem C92_labels_iff (s : State V H) (hs : 1 ≤ cfg.saveEvery) (hm : cfg.saveEvery ∣ cfg.maxit) (k : Nat) :
    (∀ j (hj : j < (relaxAfter cfg env start s (emptyTrace V) k).trace.iterations.length),
      (relaxAfter cfg env start s (emptyTrace V) k).trace.iterations[j] = plotLabel cfg.saveEvery j) ↔
    ∀ i m, 1 ≤ i → m ∈ (relaxAfter cfg env start s (emptyTrace V) k).trace.iterations → i * cfg.saveEvery < m →
      Accepted cfg env start s (emptyTrace V) (i * cfg.saveEvery) := by
  constructor
  · intro h i m hi hmem hlt
    by_contra hrej
    obtain ⟨j, hj, hne⟩ := C92_label_shifted cfg env start s hs k i m hi hrej hmem hlt
    exact hne (h j hj)
  · intro hacc
    obtain ⟨h1, h2, h3⟩ := C50_schedule cfg env start s (emptyTrace V) rfl k
    generalize (relaxAfter cfg env start s (emptyTrace V) k).trace.iterations = L at hacc h1 h2 h3
    have hdvd : ∀ i ∈ L, cfg.saveEvery ∣ i := by
      intro i hi
      rcases (h3 i).1 hi with rfl | ⟨-, -, h4 | h4, -⟩
      · exact dvd_zero _
      · exact Nat.dvd_of_mod_eq_zero h4
      · rw [h4]; exact hm
    intro j
    unfold plotLabel
    induction j with
    | zero =>
      intro hj
      rw [List.head?_eq_getElem?, List.getElem?_eq_getElem hj] at h2
      rw [Option.some.inj h2, Nat.zero_mul]
    | succ j ih =>
      intro hj
      have e := ih (by omega)
      have hlt : L[j] < L[j + 1] := List.pairwise_iff_getElem.1 h1 j (j + 1) (by omega) hj (by omega)
      obtain ⟨b, hb⟩ := hdvd L[j + 1] (List.getElem_mem _)
      have hjb : j < b := by
        rw [e, hb, Nat.mul_comm] at hlt
        exact Nat.lt_of_mul_lt_mul_left hlt
      rcases Nat.lt_or_ge (j + 1) b with hlt2 | hge
      · exfalso
        have hsm : (j + 1) * cfg.saveEvery < L[j + 1] := by
          rw [hb, Nat.mul_comm]; exact Nat.mul_lt_mul_of_pos_left hlt2 (by omega)
        have ha := hacc (j + 1) L[j + 1] (by omega) (List.getElem_mem _) hsm
        have hk : L[j + 1] ≤ k := by
          rcases (h3 _).1 (List.getElem_mem hj) with h0 | ⟨-, h0, -⟩
          · omega
          · exact h0
        have hmem : (j + 1) * cfg.saveEvery ∈ L :=
          (h3 _).2 (Or.inr ⟨Nat.mul_pos (by omega) (by omega), by omega, Or.inl (Nat.mul_mod_left _ _), ha⟩)
        obtain ⟨i, hi, hie⟩ := List.mem_iff_getElem.1 hmem
        rcases Nat.lt_or_ge j i with hij | hij
        · rcases Nat.lt_or_ge (j + 1) i with hij2 | hij2
          · have := List.pairwise_iff_getElem.1 h1 (j + 1) i hj hi hij2
            omega
          · have : i = j + 1 := by omega
            subst this
            omega
        · have hle : L[i] ≤ L[j] := by
            rcases Nat.lt_or_ge i j with h' | h'
            · exact (List.pairwise_iff_getElem.1 h1 i j hi (by omega) h').le
            · have : i = j := by omega
              subst this; exact le_rfl
          rw [hie, e] at hle
          have := Nat.le_of_mul_le_mul_right hle (by omega)
          omega
      · have : b = j + 1 := by omega
        rw [hb, this, Nat.mul_comm]

end

/-! ## The hypotheses are met -/

/-- C41: the second case of the flag occurs: the point returned for `f(x) = 3x` is not converged. -/
example : ∃ z res iters, Returns (picardSolver (fun z : (Fin 1 → ℝ) × Unit => (one1 (3 * z.1 0), z.2)) (.fin 10) 5 euclid
    (one1 1, ())) (z, res, iters) ∧ iters < 5 ∧ ¬ res.le (.fin 10) :=
  ⟨_, _, _, (C41_false_convergence 5 (by norm_num)).1, by norm_num, (C41_false_convergence 5 (by norm_num)).2⟩

/-- C52: in the demonstration run the field changes (999 accepted steps), so the caller does not see the relaxed field. -/
example : ∃ m', pyRun (demoCfg 1 1 (-1)) (demoEnv 1) ⟨freshLists 0, some 0⟩ demoMem 0 = .ok m' ∧
    (m'.states 0).Bn ≠ (relaxAfter (demoCfg 1 1 (-1)) (demoEnv 1) 0 (demoMem.states 0) (emptyTrace _) (demoCfg 1 1 (-1)).maxit).state.Bn := by
  refine ⟨_, rfl, ?_⟩
  rw [Ne, C52_caller_iff ⟨freshLists 0, some 0⟩ (freshLists_injective 0) (demoCfg 1 1 (-1)) (demoEnv 1) 0 demoMem _ 0
      (emptyTrace _) (by simp [demoMem]) (by intro k; cases k <;> simp [demoMem, Trace.vals, emptyTrace]) rfl]
  have hm : (demoCfg 1 1 (-1)).maxit = 1000 := rfl
  have h := (C51_not_applied_once 1 (le_refl _) 1000).2.1
  rw [hm]
  intro hc
  rw [show demoMem.states 0 = demoState from rfl, h, show demoState.Bn = (0, 0) from rfl] at hc
  simp at hc

/-- C55: `x=²` raises, `x=-12` does not. -/
example : (∃ e, IO.parseArgs asciiChars ["x=²".toList] = .error e) ∧ ¬ ∃ e, IO.parseArgs asciiChars ["x=-12".toList] = .error e :=
  ⟨⟨"ValueError", by decide⟩, by
    rintro ⟨e, he⟩
    rw [show IO.parseArgs asciiChars ["x=-12".toList] = .ok [("x".toList, .float (-12))] by decide] at he
    cases he⟩

/-- C66: a plane for which a crossing point is reported. -/
example : (segmentIntersection (1 / 2) 1 ![0, 0, 0] (![1, 1, 1] : V3)).2 = some ![1 / 2, 1 / 2, 1 / 2] := by
  refine (C66_jit_point_iff (by norm_num) 1 _ _ _).2 ⟨by simp, ⟨1 / 2, by norm_num, by norm_num, ?_⟩, by simp⟩
  funext i
  fin_cases i <;> norm_num

/-- C92: the only domains that are drawn correctly, and one of the others. -/
example : solveDomain ⟨"tokamak", 0.2, 1.7, 0.3, 3, 0, 1⟩ = .ok (plotDomain ⟨"tokamak", 0.2, 1.7, 0.3, 3, 0, 1⟩)
    ∧ solveDomain ⟨"tokamak", 0.2, 1.7, 0.3, 3, 0, 2⟩ ≠ .ok (plotDomain ⟨"tokamak", 0.2, 1.7, 0.3, 3, 0, 2⟩) := by
  refine ⟨(C92_domain_iff _ (by norm_num) (by norm_num) (by norm_num)).2 ⟨rfl, rfl⟩, fun h => ?_⟩
  have := ((C92_domain_iff _ (by norm_num) (by norm_num) (by norm_num)).1 h).2
  norm_num at this

/-- Case of `C41_flag` and `C41_truthful_iff`: the run `caseG_returns`, which stops after one of 20 iterations. -/
example := C41_flag caseG_returns (by norm_num)
example := C41_truthful_iff caseG_returns (by norm_num)

theorem demo_ok : ∃ m', pyRun (demoCfg 1 1 (-1)) (demoEnv 1) ⟨freshLists 0, some 0⟩ demoMem 0 = .ok m' := ⟨_, rfl⟩

/-- The demonstration run, saving the fields. -/
noncomputable def demoSave : RelaxConfig := { demoCfg 1 1 (-1) with saveB := true }

theorem demoSave_ok : ∃ m', pyRun demoSave (demoEnv 1) ⟨freshLists 0, some 0⟩ demoMem 0 = .ok m' := ⟨_, rfl⟩

/-- Case of `C52_last_saved`. -/
example := C52_last_saved ⟨freshLists 0, some 0⟩ (freshLists_injective 0) demoSave (demoEnv 1) 0 demoMem _ 0
  (emptyTrace _) (by simp [demoMem]) (by intro k; cases k <;> simp [demoMem, Trace.vals, emptyTrace]) rfl rfl demoSave_ok.choose_spec

/-- Case of `C54_copy_never_independent`. -/
example := C54_copy_never_independent ⟨freshLists 0, none⟩ (freshLists_injective 0)
    ⟨demoCfg 1 1 (-1), demoEnv 1, 0, 0⟩ ⟨demoCfg 1 1 (-1), demoEnv 1, 5, 0⟩ demoMem (by simp [demoMem]) (by simp [demoMem]) (emptyTrace _)
    (by intro k; cases k <;> simp [demoMem, Trace.vals, emptyTrace])

/-- Case of `C55_raises_iff`: see the example above. Case of `C66_list_iff`: the segment from the origin to `(1, 1, 1)` and the
plane `y = 1/2`. -/
example : (![1 / 2, 1 / 2, 1 / 2] : V3) ∈ planeIntersectionsList [![0, 0, 0], ![1, 1, 1]] ![0, 1 / 2, 0] ![0, 1, 0] := by
  refine (C66_list_iff _ _ _ _).mpr ⟨by simp [dotProduct, Fin.sum_univ_three], 0, by simp, ⟨1 / 2, by norm_num, by norm_num, ?_⟩, ?_⟩
  · funext i; fin_cases i <;> norm_num
  · simp [dotProduct, Fin.sum_univ_three]; norm_num

end Mrx.Props
