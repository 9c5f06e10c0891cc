import Verif.Model.SinglePlot
import Verif.Props.PlotScripts
import Verif.Props.Mass

/-!
# C115: the figure and the numbers of `solovev_single_plot.py`
-/

set_option linter.unusedVariables false
set_option linter.unusedSectionVars false

namespace Mrx.Props
open Mrx Spec Matrix DeRham Real IO SinglePlot

theorem get?_isSome_iff {V : Type} (d : PyDict V) (k : PyStr) : (d.get? k).isSome ↔ k ∈ d.map (·.1) := by
  induction d with
  | nil => simp [PyDict.get?]
  | cons e d ih =>
    rw [PyDict.get?_cons, List.map_cons, List.mem_cons, ← ih]
    split_ifs with h <;> simp [h]

section
variable (lib : NumLib) (W : World) (P : PyChars ℝ) (zero : ℝ → Bool)

/-- The datasets in the files of the relaxation scripts. -/
theorem wrote_dataset {params c : PyDict (ArgVal ℝ)} {dir ext : String} {f : RunFile} (h : Wrote lib W P zero params dir ext c f) (k : String) :
    (f.traces.get? k.toList).isSome ↔ k ∈ ["iterations", "force_trace", "energy_trace", "helicity_trace", "divergence_trace", "velocity_trace", "picard_iterations", "picard_errors",
      "timesteps", "wall_time_trace"] := by
  obtain ⟨suffix, D, start, dB, -, hf, -⟩ := wrote_inv lib W P zero h
  obtain ⟨name, cfg, ff, dt, eta, gamma, B, -, -, -, -, -, -, rfl⟩ := (finishWith_ok lib W zero dir suffix c D start dB f).mp hf
  unfold fileOf traceDatasets
  dsimp only
  rw [get?_isSome_iff]
  simp only [List.map_cons, List.map_nil, List.mem_cons, String.toList_inj, List.not_mem_nil]

/-- The datasets are all there, or the first one that is missing is named. -/
theorem readAll_none (d : PyDict (List FV)) (l : List String) : readAll d l = none ↔ ∀ k ∈ l, (d.get? k.toList).isSome := by
  induction l with
  | nil => simp [readAll]
  | cons k l ih =>
    unfold readAll
    rcases h : d.get? k.toList with _ | v
    · simp [h]
    · simp [h, ih]

theorem readAll_some (d : PyDict (List FV)) (a : List String) (k : String) (b : List String) (ha : ∀ x ∈ a, (d.get? x.toList).isSome) (hk : d.get? k.toList = none) :
    readAll d (a ++ k :: b) = some ("KeyError: " ++ k) := by
  induction a with
  | nil => rw [List.nil_append]; unfold readAll; rw [hk]; rfl
  | cons x a ih =>
    rw [List.cons_append]
    unfold readAll
    obtain ⟨v, hv⟩ := Option.isSome_iff_exists.mp (ha x List.mem_cons_self)
    rw [hv]
    exact ih fun y hy => ha y (List.mem_cons_of_mem _ hy)

/-- **C115 (finding)** the script never draws a run: its file is not written by any of the relaxation scripts, whatever the parameters; and if the file of a run is copied there,
the script ends with `KeyError`, since it asks for `divergence_B_trace` where the runs store `divergence_trace`. -/
theorem C115_never_draws {fs : PyStr → Option RunFile} (hfs : ∀ path f, fs path = some f → ∃ params dir ext c, Wrote lib W P zero params dir ext c f) :
    ((∀ path f, fs path = some f → f.name = path) → singlePlot zero fs = (none, .error "FileNotFoundError")) ∧
    ∀ f, fs inputFile = some f → singlePlot zero fs = (none, .error "KeyError: divergence_B_trace") := by
  constructor
  · intro hn
    have : fs inputFile = none := by
      rcases e : fs inputFile with _ | f
      · rfl
      · obtain ⟨params, dir, ext, c, hw⟩ := hfs _ _ e
        have h2 := (C112_never_found lib W P zero hw).2 "helix_qstar_3.0_m_2_h_0.05_16x16x8".toList
        refine absurd ((hn _ _ e).trans ?_) h2
        decide
    unfold singlePlot load
    rw [this]
  · intro f e
    obtain ⟨params, dir, ext, c, hw⟩ := hfs _ _ e
    have hk := wrote_dataset lib W P zero hw
    have hr : readAll f.traces datasets = some "KeyError: divergence_B_trace" := by
      refine readAll_some f.traces ["iterations", "force_trace", "velocity_trace", "helicity_trace", "energy_trace"] "divergence_B_trace"
        ["picard_iterations", "picard_errors", "timesteps", "wall_time_trace"] (fun x hx => (hk x).mpr ?_) ?_
      · revert hx x; decide
      · have : ¬ (f.traces.get? "divergence_B_trace".toList).isSome := fun h => absurd ((hk _).mp h) (by decide)
        rwa [Bool.not_eq_true, Option.isSome_eq_false_iff, Option.isNone_iff_eq_none] at this
    unfold singlePlot load
    rw [e]
    simp only [hr]

/-- **C115** the same for the name of the dataset in any file: without one of the ten the script ends before drawing. -/
theorem C115_datasets (fs : PyStr → Option RunFile) {f : RunFile} (hf : fs inputFile = some f) {fig : Figure} (h : (singlePlot zero fs).1 = some fig) :
    ∀ k ∈ ["iterations", "force_trace", "velocity_trace", "helicity_trace", "energy_trace", "divergence_B_trace", "picard_iterations", "picard_errors", "timesteps", "wall_time_trace"],
      (f.traces.get? k.toList).isSome := by
  rw [← readAll_none]
  unfold singlePlot load at h
  rw [hf] at h
  change readAll f.traces datasets = none
  rcases e : readAll f.traces datasets with _ | x
  · rfl
  · simp only [e] at h
    cases h

/-- **C115 (finding)** although the file is that of a helix, no helix is ever drawn: `helical_map` has no parameter `n_turns`. -/
theorem C115_no_helix (fs : PyStr → Option RunFile) {f : RunFile} (hf : fs inputFile = some f) (ht : f.config.get? "type".toList = some (.str "helix".toList)) :
    ∃ e, singlePlot zero fs = (none, .error e) := by
  have hm : ∃ e, plotMapOf f.config = .error e := by
    unfold plotMapOf
    rw [ht]
    rcases configNum f.config "kappa" with e | k <;> rcases configNum f.config "eps" with e' | k' <;> rcases configNum f.config "delta" with e'' | k'' <;> try exact ⟨_, rfl⟩
    dsimp only
    rw [if_neg (by decide), if_pos rfl]
    split_ifs <;> exact ⟨_, rfl⟩
  obtain ⟨e, he⟩ := hm
  unfold singlePlot load
  rw [hf]
  rcases h1 : readAll f.traces datasets with _ | x <;> rcases h2 : configTruth zero f.config "save_B" with y | s <;> simp only [h1, h2] <;> try exact ⟨_, rfl⟩
  split_ifs
  · exact ⟨_, rfl⟩
  · rw [he]
    exact ⟨_, rfl⟩

theorem single_finite_some {a : List FV} {l : List ℝ} (h : finite a = some l) : a = l.map .fin := by
  induction a generalizing l with
  | nil => rw [finite] at h; rw [← Option.some.inj h]; rfl
  | cons x a ih =>
    cases x with
    | fin x =>
      rw [finite, Option.map_eq_some_iff] at h
      obtain ⟨m, hm, rfl⟩ := h
      rw [ih hm]
      rfl
    | _ => exact absurd h (by simp [finite])

theorem single_finite_map (l : List ℝ) : finite (l.map .fin) = some l := by
  induction l with
  | nil => rfl
  | cons x l ih => rw [List.map_cons, finite, ih]; rfl

theorem figure_ok {it force hel div : List ℝ} {fig : Figure} (h : figure it force hel div = .ok fig) :
    it ≠ [] ∧ hel ≠ [] ∧ div ≠ [] ∧ force ≠ [] ∧ force.length = it.length ∧ hel.length = it.length ∧ div.length = it.length ∧
    fig = ⟨figureFile, it, force, change hel, change div, (0.9 * minOf force, 1.5 * maxOf force), (1e-16, 2 * max (maxOf (change hel)) (maxOf div)), ticks (maxOf it),
      (ticks (maxOf it)).map fun x => toInt (x / 1000)⟩ := by
  unfold figure at h
  split_ifs at h with h1 h2 h3 h4
  push Not at h2 h4
  exact ⟨h1, h2.1, h2.2, h3, h4.1, h4.2.1, h4.2.2, (Except.ok.inj h).symm⟩

/-- The four lists a figure was made of. -/
def DrawnFrom (f : RunFile) (it force hel div : List ℝ) : Prop :=
  f.traces.get? "iterations".toList = some (it.map .fin) ∧ f.traces.get? "force_trace".toList = some (force.map .fin) ∧
  f.traces.get? "helicity_trace".toList = some (hel.map .fin) ∧ f.traces.get? "divergence_B_trace".toList = some (div.map .fin)

theorem singlePlot_fig (fs : PyStr → Option RunFile) {f : RunFile} (hf : fs inputFile = some f) {fig : Figure} (h : (singlePlot zero fs).1 = some fig) : figureOf f = .ok fig := by
  unfold singlePlot at h
  rcases e : load zero fs with x | ⟨f', s, D⟩
  · rw [e] at h; cases h
  · have : f' = f := by
      unfold load at e
      rw [hf] at e
      rcases h1 : readAll f.traces datasets with _ | x <;> rcases h2 : configTruth zero f.config "save_B" with y | s <;> simp only [h1, h2] at e <;> try cases e
      split_ifs at e
      rcases h3 : plotMapOf f.config with y | F
      · rw [h3] at e; cases e
      · rw [h3] at e
        dsimp only at e
        rcases h4 : buildRun f.config F with y | D
        · rw [h4] at e; cases e
        · rw [h4] at e
          exact (congrArg Prod.fst (Except.ok.inj e)).symm
    subst this
    rw [e] at h
    dsimp only at h
    rcases h5 : figureOf f' with y | g
    · rw [h5] at h; cases h
    · rw [h5] at h
      rw [Option.some.inj h]

theorem fin_inj : Function.Injective FV.fin := fun a b h => FV.fin.inj h

theorem drawn (fs : PyStr → Option RunFile) {f : RunFile} (hf : fs inputFile = some f) {fig : Figure} (h : (singlePlot zero fs).1 = some fig) :
    ∃ it force hel div, DrawnFrom f it force hel div ∧ figure it force hel div = .ok fig := by
  have hd := C115_datasets zero fs hf h
  have hfig := singlePlot_fig zero fs hf h
  have get : ∀ k l, k ∈ ["iterations", "force_trace", "velocity_trace", "helicity_trace", "energy_trace", "divergence_B_trace", "picard_iterations", "picard_errors", "timesteps",
      "wall_time_trace"] → finite (SinglePlot.trace f k) = some l → f.traces.get? k.toList = some (l.map .fin) := by
    intro k l hk hl
    obtain ⟨v, hv⟩ := Option.isSome_iff_exists.mp (hd k hk)
    unfold SinglePlot.trace at hl
    rw [hv, Option.getD_some] at hl
    rw [hv, single_finite_some hl]
  unfold figureOf at hfig
  rcases h0 : configNum f.config "dt" with e | dt
  · rw [h0] at hfig; cases hfig
  · rw [h0] at hfig
    dsimp only at hfig
    rcases h1 : finite (SinglePlot.trace f "iterations") with _ | it <;> rcases h2 : finite (SinglePlot.trace f "force_trace") with _ | force <;>
      rcases h3 : finite (SinglePlot.trace f "helicity_trace") with _ | hel <;> rcases h4 : finite (SinglePlot.trace f "divergence_B_trace") with _ | div <;>
      simp only [h1, h2, h3, h4] at hfig <;> try cases hfig
    exact ⟨it, force, hel, div, ⟨get _ _ (by decide) h1, get _ _ (by decide) h2, get _ _ (by decide) h3, get _ _ (by decide) h4⟩, hfig⟩

theorem drawn' (fs : PyStr → Option RunFile) {f : RunFile} (hf : fs inputFile = some f) {fig : Figure} (h : (singlePlot zero fs).1 = some fig) {it force hel div : List ℝ}
    (hd : DrawnFrom f it force hel div) : figure it force hel div = .ok fig := by
  obtain ⟨it', force', hel', div', ⟨a, b, c, d⟩, e⟩ := drawn zero fs hf h
  obtain ⟨a', b', c', d'⟩ := hd
  have inj : ∀ {k : PyStr} {x y : List ℝ}, f.traces.get? k = some (x.map FV.fin) → f.traces.get? k = some (y.map FV.fin) → x = y := by
    intro k x y hx hy
    rw [hx] at hy
    exact List.map_injective_iff.mpr fin_inj (Option.some.inj hy)
  rw [inj a a', inj b b', inj c c', inj d d'] at e
  exact e

theorem figureFile_eq : figureFile = "script_outputs/helix/helix_qstar_3.0_m_2_h_0.05_16x16x8_trace_plot.pdf".toList := by decide

theorem change_getD (a : List ℝ) (k : Nat) (hk : k < a.length) : (change a).getD k 0 = |a.getD k 0 - a.getD 0 0| := by
  have h0 : a.headD 0 = a.getD 0 0 := by cases a <;> rfl
  unfold change
  rw [List.getD_eq_getElem _ _ (by rw [List.length_map]; exact hk), List.getElem_map, h0, List.getD_eq_getElem _ _ hk]

/-- **C115** what is drawn, and where to: over the iterations of the file the force as stored, and for helicity and divergence the absolute change since the first entry. -/
theorem C115_figure (fs : PyStr → Option RunFile) {f : RunFile} (hf : fs inputFile = some f) {fig : Figure} (h : (singlePlot zero fs).1 = some fig) :
    ∃ it force hel div, DrawnFrom f it force hel div ∧ fig.file = "script_outputs/helix/helix_qstar_3.0_m_2_h_0.05_16x16x8_trace_plot.pdf".toList ∧
      0 < it.length ∧ force.length = it.length ∧ hel.length = it.length ∧ div.length = it.length ∧
      fig.xs = it ∧ fig.force = force ∧ fig.helicity.length = it.length ∧ fig.divergence.length = it.length ∧
      ∀ k < it.length, fig.helicity.getD k 0 = |hel.getD k 0 - hel.getD 0 0| ∧ fig.divergence.getD k 0 = |div.getD k 0 - div.getD 0 0| := by
  obtain ⟨it, force, hel, div, hd, hfig⟩ := drawn zero fs hf h
  obtain ⟨n1, n2, n3, n4, l1, l2, l3, rfl⟩ := figure_ok hfig
  exact ⟨it, force, hel, div, hd, figureFile_eq, List.length_pos_iff.mpr n1, l1, l2, l3, rfl, rfl,
      by simp [change, l2], by simp [change, l3], fun k hk => ⟨change_getD hel k (by omega), change_getD div k (by omega)⟩⟩

/-- **C115 (finding)** the curve labelled as the norm of the divergence shows that norm exactly if it vanishes at the first entry. -/
theorem C115_divergence_iff (fs : PyStr → Option RunFile) {f : RunFile} (hf : fs inputFile = some f) {fig : Figure} (h : (singlePlot zero fs).1 = some fig) {it force hel div : List ℝ}
    (hd : DrawnFrom f it force hel div) (hpos : ∀ d ∈ div, 0 ≤ d) : fig.divergence = div ↔ div.getD 0 0 = 0 := by
  obtain ⟨n1, n2, n3, n4, l1, l2, l3, rfl⟩ := figure_ok (drawn' zero fs hf h hd)
  dsimp only
  obtain ⟨d, l, rfl⟩ := List.exists_cons_of_ne_nil n3
  constructor
  · intro e
    have := congrArg (fun l => l.getD 0 0) e
    simp [change] at this
    simpa using this.symm
  · intro e
    change d = 0 at e
    subst e
    unfold change
    conv_rhs => rw [← List.map_id (0 :: l)]
    refine List.map_congr_left fun x hx => ?_
    simp [abs_of_nonneg (hpos x hx)]

theorem single_maxOf_ge {l : List ℝ} {x : ℝ} (h : x ∈ l) : x ≤ SinglePlot.maxOf l := by
  induction l with
  | nil => cases h
  | cons a l ih =>
    cases l with
    | nil => rw [List.mem_singleton.mp h]; exact le_rfl
    | cons b l =>
      rcases List.mem_cons.mp h with rfl | h
      · exact le_max_left _ _
      · exact (ih h).trans (le_max_right _ _)

theorem single_maxOf_mem {l : List ℝ} (h : l ≠ []) : SinglePlot.maxOf l ∈ l := by
  induction l with
  | nil => exact absurd rfl h
  | cons a l ih =>
    cases l with
    | nil => exact List.mem_cons_self
    | cons b l =>
      rcases max_choice a (SinglePlot.maxOf (b :: l)) with e | e
      · exact List.mem_cons.mpr (.inl e)
      · exact List.mem_cons.mpr (.inr (by rw [SinglePlot.maxOf, e]; exact ih (by simp)))

theorem single_minOf_le {l : List ℝ} {x : ℝ} (h : x ∈ l) : SinglePlot.minOf l ≤ x := by
  induction l with
  | nil => cases h
  | cons a l ih =>
    cases l with
    | nil => rw [List.mem_singleton.mp h]; exact le_rfl
    | cons b l =>
      rcases List.mem_cons.mp h with rfl | h
      · exact min_le_left _ _
      · exact (min_le_right _ _).trans (ih h)

theorem single_minOf_mem {l : List ℝ} (h : l ≠ []) : SinglePlot.minOf l ∈ l := by
  induction l with
  | nil => exact absurd rfl h
  | cons a l ih =>
    cases l with
    | nil => exact List.mem_cons_self
    | cons b l =>
      rcases min_choice a (SinglePlot.minOf (b :: l)) with e | e
      · exact List.mem_cons.mpr (.inl e)
      · exact List.mem_cons.mpr (.inr (by rw [SinglePlot.minOf, e]; exact ih (by simp)))

/-- **C115** nothing is cut off: if the stored forces are positive and the norms of the divergence not negative, every force lies inside the limits of the upper panel, and every value of the
other curves that is greater than 1e-16 inside those of the lower one. -/
theorem C115_visible (fs : PyStr → Option RunFile) {f : RunFile} (hf : fs inputFile = some f) {fig : Figure} (h : (singlePlot zero fs).1 = some fig) {it force hel div : List ℝ}
    (hd : DrawnFrom f it force hel div) (hpos : ∀ d ∈ div, 0 ≤ d) (hforce : ∀ x ∈ force, 0 < x) :
    (∀ y ∈ fig.force, fig.top.1 < y ∧ y < fig.top.2) ∧ ∀ y ∈ fig.helicity ++ fig.divergence, 1e-16 < y → fig.bottom.1 < y ∧ y < fig.bottom.2 := by
  obtain ⟨n1, n2, n3, n4, l1, l2, l3, rfl⟩ := figure_ok (drawn' zero fs hf h hd)
  dsimp only
  constructor
  · intro y hy
    have h1 := single_minOf_le hy
    have h2 := single_maxOf_ge hy
    have h3 := hforce _ (single_minOf_mem n4)
    have h4 := hforce y hy
    constructor <;> linarith
  · intro y hy h0
    refine ⟨h0, ?_⟩
    have h1 : y ≤ max (SinglePlot.maxOf (change hel)) (SinglePlot.maxOf div) := by
      rcases List.mem_append.mp hy with hy | hy
      · exact (single_maxOf_ge hy).trans (le_max_left _ _)
      · refine le_trans ?_ (le_max_right _ _)
        unfold change at hy
        obtain ⟨x, hx, rfl⟩ := List.mem_map.mp hy
        obtain ⟨d, l, rfl⟩ := List.exists_cons_of_ne_nil n3
        have a := hpos x hx
        have b := hpos d List.mem_cons_self
        have c := single_maxOf_ge hx
        have e := single_maxOf_ge (l := d :: l) List.mem_cons_self
        rw [List.headD_cons]
        exact abs_le.mpr ⟨by linarith, by linarith⟩
    have : (0 : ℝ) < y := lt_trans (by norm_num) h0
    linarith

/-- **C115** the ticks are the multiples of 5000 up to the last iteration, and each bears the number of thousands it stands for, as the axis says. -/
theorem C115_ticks (fs : PyStr → Option RunFile) {f : RunFile} (hf : fs inputFile = some f) {fig : Figure} (h : (singlePlot zero fs).1 = some fig) {its : List Nat} {force hel div : List ℝ}
    (hd : DrawnFrom f (its.map fun n : Nat => (n : ℝ)) force hel div) :
    (∀ x, x ∈ fig.ticks ↔ ∃ k : Nat, x = 5000 * k ∧ ∃ n ∈ its, 5000 * k ≤ n) ∧ fig.labels.map (fun n : ℤ => 1000 * (n : ℝ)) = fig.ticks := by
  obtain ⟨n1, n2, n3, n4, l1, l2, l3, rfl⟩ := figure_ok (drawn' zero fs hf h hd)
  dsimp only
  have hm : ∃ n ∈ its, SinglePlot.maxOf (its.map fun n : Nat => (n : ℝ)) = n := by
    obtain ⟨n, hn, e⟩ := List.mem_map.mp (single_maxOf_mem n1)
    exact ⟨n, hn, e.symm⟩
  obtain ⟨m, hm, e⟩ := hm
  constructor
  · intro x
    unfold ticks
    rw [List.mem_map, e]
    have key : ∀ k : Nat, k ∈ List.range ⌈((m : ℝ) + 1) / 5000⌉.toNat ↔ 5000 * k ≤ m := by
      intro k
      rw [List.mem_range, Int.lt_toNat, Int.lt_ceil, lt_div_iff₀ (by norm_num)]
      constructor
      · intro h
        have : ((k * 5000 : Nat) : ℝ) < ((m + 1 : Nat) : ℝ) := by push_cast; simpa using h
        have := Nat.cast_lt.mp this
        omega
      · intro h
        have : ((5000 * k : Nat) : ℝ) ≤ ((m : Nat) : ℝ) := Nat.cast_le.mpr h
        push_cast at this ⊢
        linarith
    constructor
    · rintro ⟨k, hk, rfl⟩
      exact ⟨k, by ring, m, hm, (key k).mp hk⟩
    · rintro ⟨k, rfl, n, hn, hk⟩
      refine ⟨k, (key k).mpr (hk.trans ?_), by ring⟩
      have := single_maxOf_ge (List.mem_map.mpr ⟨n, hn, rfl⟩ : (n : ℝ) ∈ its.map fun n : Nat => (n : ℝ))
      rw [e] at this
      exact Nat.cast_le.mp this
  · rw [List.map_map]
    conv_rhs => rw [← List.map_id (ticks _)]
    refine List.map_congr_left fun x hx => ?_
    obtain ⟨k, -, rfl⟩ := List.mem_map.mp hx
    have : (k : ℝ) * 5000 / 1000 = ((5 * k : ℤ) : ℝ) := by push_cast; ring
    simp only [Function.comp_apply, id, toInt]
    rw [this, if_pos (by positivity), Int.floor_intCast]
    push_cast
    ring

/-- **C115 (finding)** without `save_B` the script saves the figure and then ends with `NameError`. -/
theorem C115_unsaved (fs : PyStr → Option RunFile) {f : RunFile} (hf : fs inputFile = some f) {fig : Figure} (h : (singlePlot zero fs).1 = some fig)
    (hs : configTruth zero f.config "save_B" = .ok false) : (singlePlot zero fs).2 = .error "NameError: name 'B_fields' is not defined" := by
  have hfig := singlePlot_fig zero fs hf h
  unfold singlePlot at h ⊢
  rcases e : load zero fs with x | ⟨f', s, D⟩
  · rw [e] at h; cases h
  · dsimp only
    have : f' = f ∧ s = false := by
      unfold load at e
      rw [hf] at e
      rcases h1 : readAll f.traces datasets with _ | x <;> simp only [h1, hs] at e <;> try cases e
      rw [if_neg (by simp)] at e
      rcases h3 : plotMapOf f.config with y | F
      · rw [h3] at e; cases e
      · rw [h3] at e
        dsimp only at e
        rcases h4 : buildRun f.config F with y | D
        · rw [h4] at e; cases e
        · rw [h4] at e
          have := Except.ok.inj e
          exact ⟨(congrArg Prod.fst this).symm, (congrArg (fun x => x.2.1) this).symm⟩
    obtain ⟨rfl, rfl⟩ := this
    rw [hfig]
    rfl

/-- **C115** the numbers the script prints: they are computed from the last saved pressure, on the sequence that is built from the configuration in the file, and the last energy. -/
theorem C115_numbers (fs : PyStr → Option RunFile) {f : RunFile} (hf : fs inputFile = some f) {m : ℝ} {b : FV} (h : (singlePlot zero fs).2 = .ok (some (m, b))) :
    ∃ F D Bs ps p, ∃ hp : p.length = D.m0, plotMapOf f.config = .ok F ∧ buildRun f.config F = .ok D ∧ f.fields = some (Bs, ps) ∧ ps.getLast? = some (some p) ∧
      m = meanPressure D (fun i => p.get (i.cast hp.symm)) ∧ ∃ energy, f.traces.get? "energy_trace".toList = some energy ∧ beta m energy = .ok b := by
  unfold singlePlot at h
  rcases e : load zero fs with x | ⟨f', s, D⟩
  · rw [e] at h; cases h
  · rw [e] at h
    dsimp only at h
    rcases h5 : figureOf f' with y | g
    · rw [h5] at h; cases h
    · rw [h5] at h
      dsimp only at h
      unfold load at e
      rw [hf] at e
      rcases h1 : readAll f.traces datasets with _ | x <;> rcases h2 : configTruth zero f.config "save_B" with y | s' <;> simp only [h1, h2] at e <;> try cases e
      split_ifs at e
      rcases h3 : plotMapOf f.config with y | F
      · rw [h3] at e; cases e
      · rw [h3] at e
        dsimp only at e
        rcases h4 : buildRun f.config F with y | D'
        · rw [h4] at e; cases e
        · rw [h4] at e
          obtain ⟨rfl, h6⟩ := Prod.mk.injEq _ _ _ _ ▸ Except.ok.inj e
          obtain ⟨rfl, rfl⟩ := Prod.mk.injEq _ _ _ _ ▸ h6
          unfold numbersOf at h
          cases s'
          · cases h
          · rcases h7 : f.fields with _ | ⟨Bs, ps⟩
            · rw [h7] at h; cases h
            · rw [h7] at h
              dsimp only at h
              rcases h8 : Bs.getLast? with _ | B <;> rcases h9 : ps.getLast? with _ | _ | p <;> simp only [h8, h9] at h <;> try cases h
              split_ifs at h with hp
              obtain ⟨v, hv⟩ := Option.isSome_iff_exists.mp ((readAll_none _ _).mp h1 "energy_trace" (by decide))
              have ht : SinglePlot.trace f "energy_trace" = v := by
                unfold SinglePlot.trace
                rw [hv]
                rfl
              rw [ht] at h
              rcases h10 : beta (meanPressure D' fun i => p.get (i.cast hp.symm)) v with y | b'
              · simp only [h10] at h
                cases h
              · simp only [h10] at h
                obtain ⟨rfl, rfl⟩ := Prod.mk.injEq _ _ _ _ ▸ Option.some.inj (Except.ok.inj h)
                exact ⟨F, D', Bs, ps, p, hp, rfl, h4, rfl, h9, rfl, v, hv, h10⟩

end

section
variable {ns ps : Nat × Nat × Nat} {q : Nat} {types : String × String × String} {F : V3 → V3} {polar dirichlet : Bool} {D : DeRham}

theorem dirOK_pos {n p q : Nat} {ty : String} (h : DirOK n p q ty) : 0 < n := by
  rcases h with ⟨-, -, h, -⟩ | ⟨-, -, -, h, -⟩ | ⟨-, h, -⟩ <;> omega

theorem unisolvent_points {n : Nat} {b : ℝ → Nat → ℝ} {xs : List ℝ} (h : Unisolvent n b xs) (hn : 0 < n) : 0 < xs.length := by
  rw [List.length_pos_iff]
  rintro rfl
  exact one_ne_zero (h (fun _ => 1) (fun x hx => absurd hx List.not_mem_nil) 0 hn)

theorem nq_pos' (h : Admissible ns ps q types F polar dirichlet D) : 0 < D.nq := by
  have hd := h.dims0
  have n1 : D.S.L0.dims.nr = ns.1 := by rw [hd]
  have n2 : D.S.L0.dims.nt = ns.2.1 := by rw [hd]
  have n3 : D.S.L0.dims.nz = ns.2.2 := by rw [hd]
  have a := unisolvent_points h.quad.r (n1 ▸ dirOK_pos h.r)
  have b := unisolvent_points h.quad.t (n2 ▸ dirOK_pos h.t)
  have c := unisolvent_points h.quad.z (n3 ▸ dirOK_pos h.z)
  rw [show D.nq = D.S.nq from h.quad.len, show D.S.nq = D.S.Q.xy.length * D.S.Q.xx.length * D.S.Q.xz.length from rfl]
  positivity

theorem single_volume_eq (h : Admissible ns ps q types F polar dirichlet D) :
    ∑ j ∈ Finset.range D.S.Q.w.length, D.g.J j * D.S.Q.w.getD j 0 = l2Product (d := 1) (fun _ _ => 1) (fun _ _ => 1) D.S.Q F := by
  rw [h.l2_eq]
  refine Finset.sum_congr rfl fun j hj => ?_
  rw [(h.metricAt (Finset.mem_range.mp hj)).1]
  simp [dotProduct, DeRham.w]

theorem single_volume_pos (h : Admissible ns ps q types F polar dirichlet D) : 0 < l2Product (d := 1) (fun _ _ => 1) (fun _ _ => 1) D.S.Q F := by
  rw [h.l2_eq]
  refine Finset.sum_pos (fun j hj => ?_) ⟨0, Finset.mem_range.mpr (nq_pos' h)⟩
  have hj := Finset.mem_range.mp hj
  obtain ⟨-, -, -, -, -, -, hp⟩ := h.metricAt hj
  have := w_pos h.core hj
  simp only [dotProduct, Finset.univ_unique, Finset.sum_singleton, mul_one]
  exact mul_pos one_pos (mul_pos hp this)

/-- **C115** the number printed as `p_avg` is the mean of the pressure over the volume (both integrals with the quadrature of the sequence); so it lies between any bounds the pressure has at the
quadrature points. -/
theorem C115_mean_pressure (h : Admissible ns ps q types F polar dirichlet D) (p : Fin D.m0 → ℝ) :
    0 < l2Product (d := 1) (fun _ _ => 1) (fun _ _ => 1) D.S.Q F ∧
    meanPressure D p = l2Product (D.phys0 p) (fun _ _ => 1) D.S.Q F / l2Product (d := 1) (fun _ _ => 1) (fun _ _ => 1) D.S.Q F ∧
    ∀ a b, (∀ x ∈ D.S.Q.x, a ≤ D.phys0 p (toV3 x) 0 ∧ D.phys0 p (toV3 x) 0 ≤ b) → a ≤ meanPressure D p ∧ meanPressure D p ≤ b := by
  have e : meanPressure D p = l2Product (D.phys0 p) (fun _ _ => 1) D.S.Q F / l2Product (d := 1) (fun _ _ => 1) (fun _ _ => 1) D.S.Q F := by
    unfold meanPressure
    rw [single_volume_eq h, (C36_projectors_are_load_vectors h).1]
  have hv := single_volume_pos h
  refine ⟨hv, e, fun a b hab => ?_⟩
  rw [e, le_div_iff₀ hv, div_le_iff₀ hv]
  have mem : ∀ j < D.nq, D.S.Q.x.getD j 0 ∈ D.S.Q.x := by
    intro j hj
    rw [← h.points_len] at hj
    rw [List.getD_eq_getElem _ _ hj]
    exact List.getElem_mem _
  constructor
  · rw [h.l2_eq, h.l2_eq, Finset.mul_sum]
    refine Finset.sum_le_sum fun j hj => ?_
    have hj := Finset.mem_range.mp hj
    obtain ⟨-, -, -, -, -, -, hp⟩ := h.metricAt hj
    have hw := mul_pos hp (w_pos h.core hj)
    have := (hab _ (mem j hj)).1
    simp only [dotProduct, Finset.univ_unique, Finset.sum_singleton, mul_one, one_mul]
    exact mul_le_mul_of_nonneg_right this hw.le
  · rw [h.l2_eq, h.l2_eq, Finset.mul_sum]
    refine Finset.sum_le_sum fun j hj => ?_
    have hj := Finset.mem_range.mp hj
    obtain ⟨-, -, -, -, -, -, hp⟩ := h.metricAt hj
    have hw := mul_pos hp (w_pos h.core hj)
    have := (hab _ (mem j hj)).2
    simp only [dotProduct, Finset.univ_unique, Finset.sum_singleton, mul_one, one_mul]
    exact mul_le_mul_of_nonneg_right this hw.le

/-- **C115 (finding)** the number printed as `Beta` is a mean divided by an integral: with the last energy `E` (the integral of `|B|²/2`) it is the ratio of the integral of the pressure to `E`
exactly if the volume is one or that integral vanishes. -/
theorem C115_beta_iff (h : Admissible ns ps q types F polar dirichlet D) (p : Fin D.m0 → ℝ) {energy : List FV} {E : ℝ} (hE : E ≠ 0) (hl : energy.getLast? = some (.fin E)) :
    ∃ b, beta (meanPressure D p) energy = .ok (.fin b) ∧
      (b = l2Product (D.phys0 p) (fun _ _ => 1) D.S.Q F / E ↔
        l2Product (d := 1) (fun _ _ => 1) (fun _ _ => 1) D.S.Q F = 1 ∨ l2Product (D.phys0 p) (fun _ _ => 1) D.S.Q F = 0) := by
  obtain ⟨hv, e, -⟩ := C115_mean_pressure h p
  refine ⟨meanPressure D p / E, ?_, ?_⟩
  · unfold beta
    rw [hl]
    simp only [FV.div, if_neg hE]
  · rw [e]
    generalize l2Product (D.phys0 p) (fun _ _ => 1) D.S.Q F = I at *
    generalize l2Product (d := 1) (fun _ _ => 1) (fun _ _ => 1) D.S.Q F = V at *
    rw [div_left_inj' hE, div_eq_iff hv.ne']
    constructor
    · intro h
      have : I * (V - 1) = 0 := by linarith
      rcases mul_eq_zero.mp this with h | h
      · exact .inr h
      · exact .inl (by linarith)
    · rintro (h | h) <;> rw [h] <;> ring

end
/-! ## Cases -/

/-- A file as the script expects it. -/
noncomputable def singleCase (n : Nat) (p : List ℝ) : RunFile where
  name := inputFile
  traces := [("iterations".toList, [.fin (0 : Nat), .fin (n : ℝ)]), ("force_trace".toList, [.fin 1, .fin 0.5]), ("velocity_trace".toList, []), ("helicity_trace".toList, [.fin 2, .fin 1]),
    ("energy_trace".toList, [.fin 3, .fin 2]), ("divergence_B_trace".toList, [.fin 1e-3, .fin 2e-3]), ("picard_iterations".toList, []), ("picard_errors".toList, []), ("timesteps".toList, []),
    ("wall_time_trace".toList, [])]
  Bfinal := []
  pfinal := none
  harmonicNorm := 0
  times := (0, 0, 0)
  fields := some ([[]], [some p])
  config := [("kappa".toList, .float 1.7), ("eps".toList, .float 0.33), ("delta".toList, .float 0.33), ("type".toList, .str "tokamak".toList), ("dt".toList, .float 1),
    ("save_B".toList, .bool true), ("n_r".toList, .int (8 : Nat)), ("n_theta".toList, .int (8 : Nat)), ("n_zeta".toList, .int (6 : Nat)), ("p_r".toList, .int (3 : Nat)),
    ("p_theta".toList, .int (3 : Nat)), ("p_zeta".toList, .int (3 : Nat))]

theorem single_map (n : Nat) (p : List ℝ) : plotMapOf (singleCase n p).config = .ok (cerfonMap 0.33 1.7 (arcsin 0.33) 1) := by
  have ht : (singleCase n p).config.get? "type".toList = some (.str "tokamak".toList) := rfl
  rw [plotMapOf_eq (tokamakOf_eq (e := 0.33) (k := 1.7) (d := 0.33) rfl rfl rfl (by norm_num)), ht]
  exact if_pos rfl

theorem single_fig (n : Nat) (p : List ℝ) : ∃ fig, figureOf (singleCase n p) = .ok fig := by
  have hn : figureOf (singleCase n p) = figure [((0 : Nat) : ℝ), (n : ℝ)] [1, 0.5] [2, 1] [1e-3, 2e-3] := by
    have t0 : configNum (singleCase n p).config "dt" = .ok 1 := rfl
    have t1 : SinglePlot.trace (singleCase n p) "iterations" = [((0 : Nat) : ℝ), (n : ℝ)].map .fin := rfl
    have t2 : SinglePlot.trace (singleCase n p) "force_trace" = [(1 : ℝ), 0.5].map .fin := rfl
    have t3 : SinglePlot.trace (singleCase n p) "helicity_trace" = [(2 : ℝ), 1].map .fin := rfl
    have t4 : SinglePlot.trace (singleCase n p) "divergence_B_trace" = [(1e-3 : ℝ), 2e-3].map .fin := rfl
    unfold figureOf
    rw [t0, t1, t2, t3, t4, single_finite_map, single_finite_map, single_finite_map, single_finite_map]
  rw [hn]
  unfold figure
  simp

theorem single_numbers (n : Nat) {D : DeRham} (p : List ℝ) (hp : p.length = D.m0) : ∃ m b, numbersOf (singleCase n p) true D = .ok (some (m, b)) := by
  have h1 : (singleCase n p).fields = some ([[]], [some p]) := rfl
  have h2 : SinglePlot.trace (singleCase n p) "energy_trace" = [.fin 3, .fin 2] := rfl
  unfold numbersOf
  simp only [h1, List.getLast?_singleton]
  rw [dif_pos hp, h2]
  unfold beta
  exact ⟨_, _, rfl⟩

theorem single_drawn (n : Nat) (p : List ℝ) : DrawnFrom (singleCase n p) ([0, n].map fun n : Nat => (n : ℝ)) [1, 0.5] [2, 1] [1e-3, 2e-3] := ⟨rfl, rfl, rfl, rfl⟩

theorem single_read (n : Nat) (p : List ℝ) : readAll (singleCase n p).traces datasets = none := by
  refine (readAll_none _ _).mpr fun k hk => (get?_isSome_iff _ _).mpr ?_
  simp only [datasets, List.mem_cons, List.not_mem_nil, or_false] at hk
  simp only [singleCase, List.map_cons, List.map_nil, List.mem_cons, String.toList_inj, List.not_mem_nil, or_false]
  tauto

/-- The files with this one. -/
noncomputable def singleFiles (n : Nat) (p : List ℝ) : PyStr → Option RunFile := fun path => if path = inputFile then some (singleCase n p) else none

theorem singleFiles_found (n : Nat) (p : List ℝ) : singleFiles n p inputFile = some (singleCase n p) := if_pos rfl

theorem single_built (n : Nat) : ∃ D : DeRham, ∀ p, buildRun (singleCase n p).config (cerfonMap 0.33 1.7 (arcsin 0.33) 1) = .ok D := by
  obtain ⟨D, hD⟩ := tokamak_run (nr := 8) (nt := 8) (nz := 6) (pr := 3) (pt := 3) (pz := 3) (ε := 0.33) (κ := 1.7) (δ := 0.33) ⟨by norm_num, by norm_num, by norm_num⟩
    (by norm_num) (by norm_num) (by norm_num) (by norm_num) (by norm_num) (by norm_num)
  exact ⟨D, fun p => buildRun_ok (sizesOf_eq rfl rfl rfl rfl rfl rfl) hD⟩

theorem single_saved (n : Nat) (p : List ℝ) : configTruth (fun _ => false) (singleCase n p).config "save_B" = .ok true := rfl

theorem load_ok {zero : ℝ → Bool} {fs : PyStr → Option RunFile} {f : RunFile} {F : V3 → V3} {D : DeRham} (h0 : fs inputFile = some f) (h1 : readAll f.traces datasets = none)
    (h2 : configTruth zero f.config "save_B" = .ok true) (h3 : f.fields ≠ none) (h4 : plotMapOf f.config = .ok F) (hb : buildRun f.config F = .ok D) : load zero fs = .ok (f, true, D) := by
  unfold load
  rw [h0]
  simp only [h1, h2]
  rw [if_neg (fun h => h3 h.2), h4]
  dsimp only
  rw [hb]

theorem single_load (n : Nat) {D : DeRham} {p : List ℝ} (hb : buildRun (singleCase n p).config (cerfonMap 0.33 1.7 (arcsin 0.33) 1) = .ok D) :
    load (fun _ => false) (singleFiles n p) = .ok (singleCase n p, true, D) := by
  exact load_ok (singleFiles_found n p) (single_read n p) (single_saved n p) (by simp [singleCase]) (single_map n p) hb

/-- Case: the script draws its figure and prints numbers. -/
theorem single_case (n : Nat) : ∃ p fig m b, singlePlot (fun _ => false) (singleFiles n p) = (some fig, .ok (some (m, b))) := by
  obtain ⟨D, hb⟩ := single_built n
  obtain ⟨p, hp⟩ : ∃ p : List ℝ, p.length = D.m0 := ⟨List.replicate D.m0 0, by simp⟩
  obtain ⟨fig, hfig⟩ := single_fig n p
  obtain ⟨m, b, hnum⟩ := single_numbers n p hp
  refine ⟨p, fig, m, b, ?_⟩
  unfold singlePlot
  rw [single_load n (hb p)]
  simp only [hfig, hnum]

example : ∃ p fig, (singlePlot (fun _ => false) (singleFiles 7000 p)).1 = some fig ∧
    (∀ x, x ∈ fig.ticks ↔ ∃ k : Nat, x = 5000 * k ∧ ∃ n ∈ [0, 7000], 5000 * k ≤ n) ∧ fig.divergence ≠ [1e-3, 2e-3] ∧ (∀ y ∈ fig.force, fig.top.1 < y ∧ y < fig.top.2) := by
  obtain ⟨p, fig, m, b, h⟩ := single_case 7000
  have hd := single_drawn 7000 p
  have hf : (singlePlot (fun _ => false) (singleFiles 7000 p)).1 = some fig := by rw [h]
  refine ⟨p, fig, hf, (C115_ticks _ _ (singleFiles_found _ _) hf hd).1, fun e => ?_, (C115_visible _ _ (singleFiles_found _ _) hf hd (by simp; norm_num) (by simp; norm_num)).1⟩
  have := (C115_divergence_iff _ _ (singleFiles_found _ _) hf hd (by simp; norm_num)).mp e
  norm_num at this
example := C115_figure (fun _ => false) _ (singleFiles_found 7000 _) (congrArg Prod.fst (single_case 7000).choose_spec.choose_spec.choose_spec.choose_spec)
example := C115_numbers (fun _ => false) _ (singleFiles_found 7000 _) (congrArg Prod.snd (single_case 7000).choose_spec.choose_spec.choose_spec.choose_spec)
example := C115_never_draws someLib someWorld asciiReal (fun _ => false) (fs := fun path => if path = wrote_case'.choose_spec.choose.name then some wrote_case'.choose_spec.choose else none)
  (fun path f h => by
    split_ifs at h
    rw [← Option.some.inj h]
    exact ⟨_, _, _, _, wrote_case'.choose_spec.choose_spec⟩)
example (polar dirichlet : Bool) (p) := C115_mean_pressure (Case.adm polar dirichlet) p
example (polar dirichlet : Bool) (p) := C115_beta_iff (Case.adm polar dirichlet) p (energy := [.fin 3, .fin 2]) (E := 2) (by norm_num) rfl

end Mrx.Props
