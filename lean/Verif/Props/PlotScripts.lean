import Verif.Model.PlotScripts
import Verif.Props.RunFile
import Std.Data.String.ToInt
import Mathlib.Data.List.GetD

/-!
# C112: which runs the Poincaré scripts can draw, and on which domain
-/

set_option linter.unusedVariables false
set_option linter.unusedSectionVars false

namespace Mrx.Props
open Mrx Spec Matrix DeRham Real IO

/-! ## Names -/

theorem append_h5_inj {a b c : PyStr} (h : a ++ c = b ++ c) : a = b := List.append_cancel_right h

/-- **C112 (finding)** the name with which `iter_plots.py` finds the file of an `iter_islands.py` run with the name `n` is `n/n`, and no other. -/
theorem C112_iter_name (lib : NumLib) (W : World) (P : PyChars ℝ) (zero : ℝ → Bool) {params : PyDict (ArgVal ℝ)} {f : RunFile} (h : iterMain lib W P zero params = .ok f) :
    ∃ given n : PyStr, f.config.get? "run_name".toList = some (.str given) ∧ (given ≠ [] → n = given) ∧
      ∀ m, plotFile "iter" m = f.name ↔ m = n ++ "/".toList ++ n := by
  obtain ⟨c, D, hc, -, -, -⟩ := iterMain_ok lib W P zero h
  obtain ⟨given, n, h1, h2, -, h3, h4⟩ := C108_name lib W P zero (dir := "iter") (ext := ".h5") (.inr (.inl ⟨rfl, rfl, hc, h⟩))
  refine ⟨given, n, by rw [h4]; exact h1, h2, fun m => ?_⟩
  rw [h3]
  unfold plotFile
  simp only [List.append_assoc, List.append_right_inj]
  rw [← List.append_assoc "/".toList, ← List.append_assoc n]
  exact List.append_left_inj _

/-- **C112 (finding)** that of a `stell.py` run is `n/n.h5`. -/
theorem C112_stell_name (lib : NumLib) (W : World) (P : PyChars ℝ) (zero : ℝ → Bool) {params : PyDict (ArgVal ℝ)} {f : RunFile} (h : stellMain lib W P zero params = .ok f) :
    ∃ given n : PyStr, f.config.get? "run_name".toList = some (.str given) ∧ (given ≠ [] → n = given) ∧
      ∀ m, plotFile "stell" m = f.name ↔ m = n ++ "/".toList ++ n ++ ".h5".toList := by
  obtain ⟨c, D, hc, -, -, -⟩ := stellMain_ok lib W P zero h
  obtain ⟨given, n, h1, h2, -, h3, h4⟩ := C108_name lib W P zero (dir := "stell") (ext := ".h5.h5") (.inr (.inr ⟨rfl, rfl, hc, h⟩))
  refine ⟨given, n, by rw [h4]; exact h1, h2, fun m => ?_⟩
  rw [h3, show ".h5.h5".toList = ".h5".toList ++ ".h5".toList from rfl]
  unfold plotFile
  simp only [List.append_assoc, List.append_right_inj]
  rw [← List.append_assoc n, ← List.append_assoc, ← List.append_assoc]
  rw [List.append_left_inj]
  simp only [List.append_assoc]

theorem dir_ne {a b : String} {x y : PyStr} (h : ("script_outputs/".toList ++ a.toList) ++ "/".toList ++ x = ("script_outputs/".toList ++ b.toList) ++ "/".toList ++ y)
    (ha : '/' ∉ a.toList) (hb : '/' ∉ b.toList) : a = b := by
  simp only [List.append_assoc, List.append_right_inj] at h
  have e : ∀ (l : List Char) (z : List Char), '/' ∉ l → (l ++ ("/".toList ++ z)).takeWhile (· ≠ '/') = l := by
    intro l z hl
    induction l with
    | nil => rfl
    | cons c l ih =>
      rw [List.cons_append, List.takeWhile_cons, if_pos (by simp; rintro rfl; exact hl List.mem_cons_self), ih (fun h => hl (List.mem_cons_of_mem _ h))]
  have h2 := congrArg (List.takeWhile (· ≠ '/')) h
  rw [e _ _ ha, e _ _ hb] at h2
  exact String.toList_inj.mp h2

section
variable (lib : NumLib) (W : World) (P : PyChars ℝ) (zero : ℝ → Bool)

/-- **C112 (finding)** `solovev_poincare.py` looks for `script_outputs/iter/default.h5` and `helix_plots.py` in `script_outputs/helix/`: no relaxation script writes such a file, whatever its
parameters are. -/
theorem C112_never_found {params c : PyDict (ArgVal ℝ)} {dir ext : String} {f : RunFile} (h : Wrote lib W P zero params dir ext c f) :
    f.name ≠ plotFile "iter" "default".toList ∧ ∀ m, f.name ≠ plotFile "helix" m := by
  obtain ⟨given, n, -, -, -, hn, -⟩ := C108_name lib W P zero h
  have hdir : '/' ∉ dir.toList ∧ dir ≠ "helix" ∧ (dir = "iter" → ext = ".h5") := by
    rcases h with ⟨a, rfl, rfl, -⟩ | ⟨rfl, rfl, -⟩ | ⟨rfl, rfl, -⟩ <;> decide
  rw [hn]
  unfold plotFile
  constructor
  · intro e
    have e' : ("script_outputs/".toList ++ dir.toList) ++ "/".toList ++ (n ++ "/".toList ++ n ++ ext.toList) =
        ("script_outputs/".toList ++ "iter".toList) ++ "/".toList ++ ("default".toList ++ ".h5".toList) := by
      simpa only [List.append_assoc] using e
    obtain rfl := dir_ne e' hdir.1 (by decide)
    obtain rfl := hdir.2.2 rfl
    simp only [List.append_assoc, List.append_right_inj] at e
    rw [← List.append_assoc, ← List.append_assoc, List.append_left_inj] at e
    have : '/' ∈ "default".toList := by
      rw [← e]
      exact List.mem_append_left _ (List.mem_append_right _ (by decide))
    exact absurd this (by decide)
  · intro m e
    have e' : ("script_outputs/".toList ++ dir.toList) ++ "/".toList ++ (n ++ "/".toList ++ n ++ ext.toList) =
        ("script_outputs/".toList ++ "helix".toList) ++ "/".toList ++ (m ++ ".h5".toList) := by
      simpa only [List.append_assoc] using e
    exact hdir.2.1 (dir_ne e' hdir.1 (by decide))

/-- **C112 (finding)** so where all files were written by runs, `helix_plots.py` with any name, and `solovev_poincare.py`, end with `FileNotFoundError`. -/
theorem C112_no_file {fs : PyStr → Option RunFile} (hfs : ∀ path f, fs path = some f → f.name = path ∧ ∃ params dir ext c, Wrote lib W P zero params dir ext c f) :
    solovevPoincare fs = .error "FileNotFoundError" ∧
    ∀ plotParams m, plotParams.get? "run_name".toList = some (.str m) → helixPlots fs plotParams = .error "FileNotFoundError" := by
  have key : ∀ path, (∀ f params dir ext c, Wrote lib W P zero params dir ext c f → f.name ≠ path) → fs path = none := by
    intro path h
    rcases e : fs path with _ | f
    · rfl
    · obtain ⟨h1, params, dir, ext, c, h2⟩ := hfs path f e
      exact absurd h1 (h f params dir ext c h2)
  constructor
  · unfold solovevPoincare openPlot
    rw [key _ fun f params dir ext c hw => (C112_never_found lib W P zero hw).1]
  · intro plotParams m hm
    unfold helixPlots plotMain
    rw [hm]
    simp only
    unfold openPlot
    rw [key _ fun f params dir ext c hw => (C112_never_found lib W P zero hw).2 m]


/-! ## The type -/

/-- The type in the preset of a device. -/
def kindOf (u : PyStr) : Option PyStr :=
  if u = "ITER".toList ∨ u = "NSTX".toList ∨ u = "SPHERO".toList then some "tokamak".toList
  else if u = "ROT_ELL".toList then some "rotating_ellipse".toList
  else if u = "HELIX".toList then some "helix".toList
  else none

/-- The type in the preset of the device that is named on the command line, in lower or upper case. -/
def namedKind (params : PyDict (ArgVal ℝ)) : Option PyStr :=
  match params.get? "device".toList with
  | some (.str s) => if s = [] then none else kindOf (P.upper s)
  | _ => none

theorem get?_hit {V : Type} {e : PyStr × V} {d : PyDict V} {k : PyStr} (h : k = e.1) : PyDict.get? (e :: d) k = some e.2 := by
  rw [PyDict.get?_cons, if_pos h]
theorem get?_miss {V : Type} {e : PyStr × V} {d : PyDict V} {k : PyStr} (h : k ≠ e.1) : PyDict.get? (e :: d) k = d.get? k := by
  rw [PyDict.get?_cons, if_neg h]

theorem preset_type (u : PyStr) : (((devicePresets realLits).get? u).getD []).get? "type".toList = (kindOf u).map .str := by
  by_cases h1 : u = "ITER".toList
  · subst h1; rw [devicePresets, get?_hit rfl]; rfl
  by_cases h2 : u = "NSTX".toList
  · rw [devicePresets, get?_miss h1, get?_hit h2, h2]; rfl
  by_cases h3 : u = "SPHERO".toList
  · rw [devicePresets, get?_miss h1, get?_miss h2, get?_hit h3, h3]; rfl
  by_cases h4 : u = "ROT_ELL".toList
  · rw [devicePresets, get?_miss h1, get?_miss h2, get?_miss h3, get?_hit h4, h4]; rfl
  by_cases h5 : u = "HELIX".toList
  · rw [devicePresets, get?_miss h1, get?_miss h2, get?_miss h3, get?_miss h4, get?_hit h5, h5]; rfl
  rw [devicePresets, get?_miss h1, get?_miss h2, get?_miss h3, get?_miss h4, get?_miss h5, kindOf, if_neg (fun h => h.elim h1 fun h => h.elim h2 h3), if_neg h4, if_neg h5]
  rfl

theorem selected_type (params : PyDict (ArgVal ℝ)) : (selectedPreset P (devicePresets realLits) params).get? "type".toList = (namedKind P params).map .str := by
  unfold selectedPreset namedKind
  rcases params.get? "device".toList with _ | dev
  · rfl
  cases dev with
  | str s =>
    dsimp only
    by_cases h : s = []
    · rw [if_pos h, if_pos h]; rfl
    · rw [if_neg h, if_neg h]; exact preset_type _
  | _ => rfl

theorem final_type {params config c : PyDict (ArgVal ℝ)} (hp : (params.map (·.1)).Nodup) (hn : config.get? "type".toList = none)
    (h : updateConfig P zero (devicePresets realLits) params config = .ok c) :
    c.get? "type".toList = (namedKind P params).map fun k => (params.get? "type".toList).getD (.str k) := by
  rw [C56_precedence P zero _ params config c hp (selected_nodup P params) h, hn, selected_type]
  rcases namedKind P params with _ | k
  · simp
  · simp only [Option.map_some, Option.isSome_some, or_true, if_true]
    rcases params.get? "type".toList with _ | v <;> rfl

/-- **C112** the file of a run has an attribute `type` exactly if a device of the table was named on the command line; it is the one of the preset, or the one on the command line. Without a
device, `type=...` is ignored. -/
theorem C112_type {params c : PyDict (ArgVal ℝ)} (hp : (params.map (·.1)).Nodup) {dir ext : String} {f : RunFile} (h : Wrote lib W P zero params dir ext c f) :
    f.config.get? "type".toList = (namedKind P params).map fun k => (params.get? "type".toList).getD (.str k) := by
  obtain ⟨-, -, -, -, -, -, e⟩ := C108_name lib W P zero h
  rw [e]
  rcases h with ⟨a, -, -, hc, -⟩ | ⟨-, -, hc, -⟩ | ⟨-, -, hc, -⟩
  · unfold solovevConfig at hc
    rcases hu : updateConfig P zero (devicePresets realLits) params (defaultConfig realLits) with e | c0
    · rw [hu] at hc; cases hc
    rw [hu] at hc
    obtain rfl := Except.ok.inj hc
    have := final_type P zero hp (by rfl) hu
    cases a
    · exact this
    · rw [if_pos rfl, PyDict.get?_update _ _ (by decide), this]
      rfl
  · exact final_type P zero hp (by rfl) hc
  · exact final_type P zero hp (by rfl) hc

/-! ## The domain -/

theorem tokamakOf_inv {c : PyDict (ArgVal ℝ)} {F : V3 → V3} (h : tokamakOf c = .ok F) :
    ∃ e k d, configNum c "eps" = .ok e ∧ configNum c "kappa" = .ok k ∧ configNum c "delta" = .ok d ∧ F = cerfonMap e k (arcsin d) 1 := by
  unfold tokamakOf at h
  split at h
  · rename_i e k d h1 h2 h3
    split_ifs at h
    refine ⟨e, k, d, h1, h2, h3, ?_⟩
    rw [← Except.ok.inj h]
    norm_num
  · cases h

/-- What the scripts do with a configuration that has a tokamak shape. -/
theorem plotMapOf_eq {c : PyDict (ArgVal ℝ)} {F : V3 → V3} (h : tokamakOf c = .ok F) :
    plotMapOf c = match c.get? "type".toList with
      | none => .error "KeyError: 'type'"
      | some t =>
        if t = .str "tokamak".toList then .ok F
        else if t = .str "helix".toList then
          if (c.get? "h_helix".toList).isNone then .error "KeyError: 'h_helix'"
          else if (c.get? "m_helix".toList).isNone then .error "KeyError: 'm_helix'"
          else .error "TypeError: helical_map() got an unexpected keyword argument 'n_turns'"
        else if t = .str "rotating_ellipse".toList then
          if (c.get? "m_rot".toList).isNone then .error "KeyError: 'm_rot'" else ellipseOf c "m_rot"
        else .error "ValueError: Unknown configuration type." := by
  obtain ⟨e, k, d, h1, h2, h3, rfl⟩ := tokamakOf_inv h
  unfold plotMapOf
  rw [h1, h2, h3]
  rcases c.get? "type".toList with _ | t
  · rfl
  · dsimp only
    rw [h]

theorem buildRun_F {c : PyDict (ArgVal ℝ)} {F : V3 → V3} {D : DeRham} (h : buildRun c F = .ok D) : D.F = F := by
  unfold buildRun at h
  rcases hs : sizesOf c with e | ⟨ns, ps⟩
  · rw [hs] at h; cases h
  rw [hs] at h
  dsimp only at h
  rcases hb : DeRham.mk? ns ps (pointsOf ps) (typesOf ns.2.2) F true true with e | D'
  · rw [hb] at h; cases h
  rw [hb] at h
  dsimp only at h
  split_ifs at h
  rw [← Except.ok.inj h]
  exact (Admissible.metric hb).2

/-- The inside of an `iter_islands.py` run. -/
theorem iter_inside {params : PyDict (ArgVal ℝ)} {f : RunFile} (h : iterMain lib W P zero params = .ok f) :
    ∃ D F, iterRun P zero params = .ok D ∧ tokamakOf f.config = .ok F ∧ buildRun f.config F = .ok D ∧ Wrote lib W P zero params "iter" ".h5" f.config f := by
  obtain ⟨c, D, hc, hD, hb, -⟩ := iterMain_ok lib W P zero h
  have hw : Wrote lib W P zero params "iter" ".h5" c f := .inr (.inl ⟨rfl, rfl, hc, h⟩)
  obtain ⟨-, -, -, -, -, -, rfl⟩ := C108_name lib W P zero hw
  unfold iterBuild at hb
  rcases ht : tokamakOf f.config with e | F
  · rw [ht] at hb; cases hb
  rw [ht] at hb
  exact ⟨D, F, hD, rfl, hb, hw⟩

/-- The script on a file it finds. -/
theorem openPlot_found {dir : String} {mapOf : PyDict (ArgVal ℝ) → Except String (V3 → V3)} {fs : PyStr → Option RunFile} {plotParams : PyDict (ArgVal ℝ)} {m : PyStr} {f : RunFile}
    (hm : plotParams.get? "run_name".toList = some (.str m)) (hfs : fs (plotFile dir m) = some f) :
    plotMain dir mapOf fs plotParams = match mapOf f.config with
      | .error e => .error e
      | .ok F =>
        match buildRun f.config F with
        | .error e => .error e
        | .ok D =>
          match f.fields with
          | none => .error "AttributeError: 'NoneType' object has no attribute 'shape'"
          | some (Bs, ps) => .ok ⟨D, plotFigures dir m Bs ps⟩ := by
  unfold plotMain
  rw [hm]
  change openPlot dir mapOf fs m = _
  unfold openPlot
  rw [hfs]
  rfl

/-- The figures of a run: figure `i` is made of saved field `i` and saved pressure `i`. -/
def FiguresOf (dir : String) (m : PyStr) (f : RunFile) (figs : List (PyStr × List ℝ × Option (List ℝ))) : Prop :=
  ∃ Bs ps, f.fields = some (Bs, ps) ∧ figs.length = Bs.length ∧ ps.length = Bs.length ∧
    ∀ (i : Nat) (hB : i < Bs.length) (hp : i < ps.length), figs[i]? = some (stepFile dir m i, Bs[i], ps[i])

theorem figures_of {dir : String} {m : PyStr} {f : RunFile} {Bs : List (List ℝ)} {ps : List (Option (List ℝ))} (h : f.fields = some (Bs, ps)) (hl : ps.length = Bs.length) :
    FiguresOf dir m f (plotFigures dir m Bs ps) := by
  refine ⟨Bs, ps, h, by simp [plotFigures], hl, fun i hB hp => ?_⟩
  unfold plotFigures
  rw [List.getElem?_map, List.getElem?_range hB]
  simp only [Option.map_some]
  rw [List.getD_eq_getElem _ _ hB, List.getD_eq_getElem _ _ hp]

theorem fields_len {params c : PyDict (ArgVal ℝ)} {dir ext : String} {f : RunFile} (h : Wrote lib W P zero params dir ext c f) {Bs : List (List ℝ)} {ps : List (Option (List ℝ))}
    (hf : f.fields = some (Bs, ps)) : ps.length = Bs.length ∧ 2 ≤ Bs.length := by
  obtain ⟨-, its, -, h2, -, h3⟩ := C108_saved_fields lib W P zero h
  obtain ⟨-, -, h4, h5⟩ := h3 Bs ps hf
  exact ⟨by omega, by omega⟩

/-- **C112 (finding)** without a device `iter_plots.py` ends with `KeyError: 'type'` on the file of every `iter_islands.py` run: the runs store `boundary_type`. -/
theorem C112_iter_no_device {params : PyDict (ArgVal ℝ)} (hp : (params.map (·.1)).Nodup) {f : RunFile} (h : iterMain lib W P zero params = .ok f) (hd : namedKind P params = none)
    {fs : PyStr → Option RunFile} {plotParams : PyDict (ArgVal ℝ)} {m : PyStr} (hm : plotParams.get? "run_name".toList = some (.str m)) (hfs : fs (plotFile "iter" m) = some f) :
    iterPlots fs plotParams = .error "KeyError: 'type'" := by
  obtain ⟨D, F, -, ht, -, hw⟩ := iter_inside lib W P zero h
  unfold iterPlots
  rw [openPlot_found hm hfs, plotMapOf_eq ht, C112_type lib W P zero hp hw, hd]
  rfl

/-- **C112** with a tokamak device (`ITER`, `NSTX`, `SPHERO`; more generally with the final type `tokamak`) `iter_plots.py` computes with the very sequence of the run, and draws one figure
for each saved field, if the fields were saved; without `save_B` it ends with `AttributeError`. -/
theorem C112_iter_tokamak {params : PyDict (ArgVal ℝ)} (hp : (params.map (·.1)).Nodup) {f : RunFile} (h : iterMain lib W P zero params = .ok f) {k : PyStr}
    (hd : namedKind P params = some k) (ht : (params.get? "type".toList).getD (.str k) = .str "tokamak".toList)
    {fs : PyStr → Option RunFile} {plotParams : PyDict (ArgVal ℝ)} {m : PyStr} (hm : plotParams.get? "run_name".toList = some (.str m)) (hfs : fs (plotFile "iter" m) = some f) :
    ∃ D, iterRun P zero params = .ok D ∧
      (configTruth zero f.config "save_B" = .ok true → ∃ figs, iterPlots fs plotParams = .ok ⟨D, figs⟩ ∧ FiguresOf "iter" m f figs ∧ 2 ≤ figs.length) ∧
      (configTruth zero f.config "save_B" = .ok false → iterPlots fs plotParams = .error "AttributeError: 'NoneType' object has no attribute 'shape'") := by
  obtain ⟨D, F, hD, hF, hb, hw⟩ := iter_inside lib W P zero h
  have key : iterPlots fs plotParams = match f.fields with
      | none => .error "AttributeError: 'NoneType' object has no attribute 'shape'"
      | some (Bs, ps) => .ok ⟨D, plotFigures "iter" m Bs ps⟩ := by
    unfold iterPlots
    rw [openPlot_found hm hfs, plotMapOf_eq hF, C112_type lib W P zero hp hw, hd]
    dsimp only [Option.map_some]
    rw [if_pos ht]
    dsimp only
    rw [hb]
  obtain ⟨hs, -⟩ := C108_saved_fields lib W P zero hw
  refine ⟨D, hD, fun e => ?_, fun e => ?_⟩
  · rcases hf : f.fields with _ | ⟨Bs, ps⟩
    · rw [hf, e] at hs; cases hs
    rw [hf] at key
    have := fields_len lib W P zero hw hf
    exact ⟨_, key, figures_of hf this.1, by simp [plotFigures, this.2]⟩
  · rcases hf : f.fields with _ | ⟨Bs, ps⟩
    · rw [hf] at key; exact key
    rw [hf, e] at hs; cases hs

/-- **C112 (finding)** a run with a final type `helix` is never drawn; with `device=HELIX` the script ends with a `TypeError`: `helical_map` has no parameter `n_turns`. -/
theorem C112_iter_helix {params : PyDict (ArgVal ℝ)} (hp : (params.map (·.1)).Nodup) {f : RunFile} (h : iterMain lib W P zero params = .ok f) {k : PyStr}
    (hd : namedKind P params = some k) (ht : (params.get? "type".toList).getD (.str k) = .str "helix".toList)
    {fs : PyStr → Option RunFile} {plotParams : PyDict (ArgVal ℝ)} {m : PyStr} (hm : plotParams.get? "run_name".toList = some (.str m)) (hfs : fs (plotFile "iter" m) = some f) :
    (∃ e, iterPlots fs plotParams = .error e) ∧
    (k = "helix".toList → iterPlots fs plotParams = .error "TypeError: helical_map() got an unexpected keyword argument 'n_turns'") := by
  obtain ⟨D, F, hD, hF, hb, hw⟩ := iter_inside lib W P zero h
  have hne : (ArgVal.str "helix".toList : ArgVal ℝ) ≠ .str "tokamak".toList := by simp
  have key : iterPlots fs plotParams = match (if (f.config.get? "h_helix".toList).isNone then .error "KeyError: 'h_helix'"
          else if (f.config.get? "m_helix".toList).isNone then .error "KeyError: 'm_helix'"
          else .error "TypeError: helical_map() got an unexpected keyword argument 'n_turns'" : Except String (V3 → V3)) with
      | .error e => .error e
      | .ok F =>
        match buildRun f.config F with
        | .error e => .error e
        | .ok D =>
          match f.fields with
          | none => .error "AttributeError: 'NoneType' object has no attribute 'shape'"
          | some (Bs, ps) => .ok ⟨D, plotFigures "iter" m Bs ps⟩ := by
    unfold iterPlots
    rw [openPlot_found hm hfs, plotMapOf_eq hF, C112_type lib W P zero hp hw, hd]
    dsimp only [Option.map_some]
    rw [ht, if_neg hne, if_pos rfl]
  constructor
  · rw [key]
    split_ifs <;> exact ⟨_, rfl⟩
  · rintro rfl
    have hu : ∃ s, params.get? "device".toList = some (.str s) ∧ s ≠ [] ∧ P.upper s = "HELIX".toList := by
      unfold namedKind at hd
      split at hd
      · rename_i s hs
        split_ifs at hd with h0
        refine ⟨s, hs, h0, ?_⟩
        unfold kindOf at hd
        split_ifs at hd with a b c
        · exact absurd (Option.some.inj hd) (by decide)
        · exact absurd (Option.some.inj hd) (by decide)
        · exact c
      · cases hd
    obtain ⟨s, hs, h0, hu⟩ := hu
    obtain ⟨c, D', hc, -, -, -⟩ := iterMain_ok lib W P zero h
    obtain ⟨-, -, -, -, -, -, e⟩ := C108_name lib W P zero (dir := "iter") (ext := ".h5") (.inr (.inl ⟨rfl, rfl, hc, h⟩))
    have hv : ∀ k : String, (((selectedPreset P (devicePresets realLits) params).get? k.toList)).isSome → (c.get? k.toList).isSome := by
      intro k hk
      rw [C56_precedence P zero _ params _ c hp (selected_nodup P params) hc, if_pos (.inr hk)]
      rcases params.get? k.toList with _ | v
      · rcases hq : (selectedPreset P (devicePresets realLits) params).get? k.toList with _ | w
        · rw [hq] at hk; cases hk
        · rfl
      · rfl
    have hsel : selectedPreset P (devicePresets realLits) params = ((devicePresets realLits).get? "HELIX".toList).getD [] := by
      rw [selected_name P hs h0, hu]
    have e1 := hv "h_helix" (by rw [hsel]; rfl)
    have e2 := hv "m_helix" (by rw [hsel]; rfl)
    rw [key, e, if_neg (by rw [Option.isNone_iff_eq_none]; intro h; rw [h] at e1; cases e1), if_neg (by rw [Option.isNone_iff_eq_none]; intro h; rw [h] at e2; cases e2)]

/-- The magnetic axis of the tokamak half a period on. -/
theorem cerfon_axis (e k a : ℝ) : cerfonMap e k a 1 ![0, 0, 1 / 2] 0 = -1 := by
  unfold cerfonMap
  simp only [Matrix.cons_val_zero, Matrix.cons_val_one, Matrix.cons_val_two, Matrix.tail_cons, Matrix.head_cons, mul_zero, zero_mul, add_zero, one_mul]
  rw [show (2 * π * (1 / 2) : ℝ) = π by ring]
  exact cos_pi

theorem ellipse_axis {e k : ℝ} {m : Int} {F : V3 → V3} (h : rotatingEllipseMap e k m = .ok F) : 0 < m ∧ F ![0, 0, 1 / 2] 0 = cos (π / m) := by
  unfold rotatingEllipseMap at h
  split_ifs at h with h1 h2
  have hm : 0 < m := by omega
  refine ⟨hm, ?_⟩
  rw [← Except.ok.inj h]
  unfold rotatingEllipseF
  simp only [Matrix.cons_val_zero, Matrix.cons_val_one, Matrix.cons_val_two, Matrix.tail_cons, Matrix.head_cons, mul_zero, zero_mul, add_zero, one_mul, if_pos hm]
  congr 1
  ring

theorem cos_pi_div {m : Int} (h : 0 < m) (h1 : m ≠ 1) : cos (π / m) ≠ -1 := by
  have h2 : (2 : ℝ) ≤ m := by exact_mod_cast (show (2 : Int) ≤ m by omega)
  have hp := pi_pos
  have h3 : 0 ≤ π / m := div_nonneg hp.le (by linarith)
  have h4 : π / m ≤ π / 2 := div_le_div_of_nonneg_left hp.le (by norm_num) h2
  have : 0 ≤ cos (π / m) := cos_nonneg_of_mem_Icc ⟨by linarith, h4⟩
  intro h3
  rw [h3] at this
  linarith

/-- **C112 (finding)** with `device=ROT_ELL` (more generally with the final type `rotating_ellipse`) `iter_plots.py` computes on a rotating ellipse, although the run was made on the
tokamak: with a number of periods `m_rot` other than one (5 in the preset) this is another domain. -/
theorem C112_iter_ellipse {params : PyDict (ArgVal ℝ)} (hp : (params.map (·.1)).Nodup) {f : RunFile} (h : iterMain lib W P zero params = .ok f) {k : PyStr}
    (hd : namedKind P params = some k) (ht : (params.get? "type".toList).getD (.str k) = .str "rotating_ellipse".toList)
    {fs : PyStr → Option RunFile} {plotParams : PyDict (ArgVal ℝ)} {m : PyStr} (hm : plotParams.get? "run_name".toList = some (.str m)) (hfs : fs (plotFile "iter" m) = some f)
    {r : PlotInput} (hr : iterPlots fs plotParams = .ok r) :
    ∃ D e k d n, iterRun P zero params = .ok D ∧ configNum f.config "eps" = .ok e ∧ configNum f.config "kappa" = .ok k ∧ configNum f.config "delta" = .ok d ∧
      configInt f.config "m_rot" = .ok n ∧ D.F = cerfonMap e k (arcsin d) 1 ∧ rotatingEllipseMap e k n = .ok r.D.F ∧ (n ≠ 1 → r.D.F ≠ D.F) := by
  obtain ⟨D, F, hD, hF, hb, hw⟩ := iter_inside lib W P zero h
  obtain ⟨e, k', d, h1, h2, h3, rfl⟩ := tokamakOf_inv hF
  have hne : (ArgVal.str "rotating_ellipse".toList : ArgVal ℝ) ≠ .str "tokamak".toList := by simp
  have hne' : (ArgVal.str "rotating_ellipse".toList : ArgVal ℝ) ≠ .str "helix".toList := by simp
  unfold iterPlots at hr
  rw [openPlot_found hm hfs, plotMapOf_eq hF, C112_type lib W P zero hp hw, hd] at hr
  dsimp only [Option.map_some] at hr
  rw [ht, if_neg hne, if_neg hne', if_pos rfl] at hr
  split_ifs at hr with hm'
  rcases hE : ellipseOf f.config "m_rot" with er | G
  · rw [hE] at hr; cases hr
  rw [hE] at hr
  dsimp only at hr
  rcases hB : buildRun f.config G with er | D'
  · rw [hB] at hr; cases hr
  rw [hB] at hr
  dsimp only at hr
  rcases hf : f.fields with _ | ⟨Bs, ps⟩
  · rw [hf] at hr; cases hr
  rw [hf] at hr
  obtain rfl := Except.ok.inj hr
  unfold ellipseOf at hE
  rw [h1, h2] at hE
  rcases hn : configInt f.config "m_rot" with er | n
  · rw [hn] at hE; cases hE
  rw [hn] at hE
  dsimp only at hE
  have eF := buildRun_F hb
  have eG := buildRun_F hB
  refine ⟨D, e, k', d, n, hD, h1, h2, h3, rfl, eF, by rw [hE]; exact congrArg _ eG.symm, fun hn1 hEq => ?_⟩
  dsimp only at hEq
  rw [eF, eG] at hEq
  obtain ⟨hpos, hax⟩ := ellipse_axis hE
  rw [hEq, cerfon_axis] at hax
  exact cos_pi_div hpos hn1 hax.symm

/-- **C112** any other final type ends with `ValueError`. -/
theorem C112_iter_other {params : PyDict (ArgVal ℝ)} (hp : (params.map (·.1)).Nodup) {f : RunFile} (h : iterMain lib W P zero params = .ok f) {k : PyStr}
    (hd : namedKind P params = some k) (ht : ∀ t ∈ ["tokamak", "helix", "rotating_ellipse"], (params.get? "type".toList).getD (.str k) ≠ .str t.toList)
    {fs : PyStr → Option RunFile} {plotParams : PyDict (ArgVal ℝ)} {m : PyStr} (hm : plotParams.get? "run_name".toList = some (.str m)) (hfs : fs (plotFile "iter" m) = some f) :
    iterPlots fs plotParams = .error "ValueError: Unknown configuration type." := by
  obtain ⟨D, F, hD, hF, hb, hw⟩ := iter_inside lib W P zero h
  unfold iterPlots
  rw [openPlot_found hm hfs, plotMapOf_eq hF, C112_type lib W P zero hp hw, hd]
  dsimp only [Option.map_some]
  rw [if_neg (ht "tokamak" (by simp)), if_neg (ht "helix" (by simp)), if_neg (ht "rotating_ellipse" (by simp))]

/-- **C112** when `iter_plots.py` draws a run of `iter_islands.py` on its own domain, for a number of periods `m_rot` other than one: exactly if a device is named, the final type is
`tokamak`, and the fields were saved. (Expected but false: always.) -/
theorem C112_iter_domain_iff {params : PyDict (ArgVal ℝ)} (hp : (params.map (·.1)).Nodup) {f : RunFile} (h : iterMain lib W P zero params = .ok f)
    (hrot : configInt f.config "m_rot" ≠ .ok 1)
    {fs : PyStr → Option RunFile} {plotParams : PyDict (ArgVal ℝ)} {m : PyStr} (hm : plotParams.get? "run_name".toList = some (.str m)) (hfs : fs (plotFile "iter" m) = some f)
    {D : DeRham} (hD : iterRun P zero params = .ok D) :
    (∃ r, iterPlots fs plotParams = .ok r ∧ r.D.F = D.F) ↔
      (∃ k, namedKind P params = some k ∧ (params.get? "type".toList).getD (.str k) = .str "tokamak".toList) ∧ configTruth zero f.config "save_B" = .ok true := by
  have hw := (iter_inside lib W P zero h).choose_spec.choose_spec.2.2.2
  obtain ⟨hs, -⟩ := C108_saved_fields lib W P zero hw
  constructor
  · rintro ⟨r, hr, hF⟩
    rcases hk : namedKind P params with _ | k
    · rw [C112_iter_no_device lib W P zero hp h hk hm hfs] at hr; cases hr
    by_cases ht : (params.get? "type".toList).getD (.str k) = .str "tokamak".toList
    · refine ⟨⟨k, rfl, ht⟩, ?_⟩
      obtain ⟨D', hD', -, h2⟩ := C112_iter_tokamak lib W P zero hp h hk ht hm hfs
      rw [hs]
      rcases hf : f.fields with _ | x
      · rw [h2 (by rw [hs, hf]; rfl)] at hr; cases hr
      · rfl
    by_cases ht2 : (params.get? "type".toList).getD (.str k) = .str "helix".toList
    · obtain ⟨⟨e, he⟩, -⟩ := C112_iter_helix lib W P zero hp h hk ht2 hm hfs
      rw [he] at hr; cases hr
    by_cases ht3 : (params.get? "type".toList).getD (.str k) = .str "rotating_ellipse".toList
    · obtain ⟨D', e, k', d, n, hD', -, -, -, hn, -, -, h1⟩ := C112_iter_ellipse lib W P zero hp h hk ht3 hm hfs hr
      rw [hD] at hD'
      obtain rfl := Except.ok.inj hD'
      exact absurd hF (h1 (fun e => hrot (by rw [hn, e])))
    · rw [C112_iter_other lib W P zero hp h hk (fun t ht' => by
        simp only [List.mem_cons, List.not_mem_nil, or_false] at ht'
        rcases ht' with rfl | rfl | rfl <;> assumption) hm hfs] at hr
      cases hr
  · rintro ⟨⟨k, hk, ht⟩, hsv⟩
    obtain ⟨D', hD', h1, -⟩ := C112_iter_tokamak lib W P zero hp h hk ht hm hfs
    rw [hD] at hD'
    obtain rfl := Except.ok.inj hD'
    obtain ⟨figs, h2, -⟩ := h1 hsv
    exact ⟨_, h2, rfl⟩

/-- **C112** `stell_plots.py` computes with the very sequence of every `stell.py` run, and draws one figure for each saved field if the fields were saved. -/
theorem C112_stell {params : PyDict (ArgVal ℝ)} {f : RunFile} (h : stellMain lib W P zero params = .ok f)
    {fs : PyStr → Option RunFile} {plotParams : PyDict (ArgVal ℝ)} {m : PyStr} (hm : plotParams.get? "run_name".toList = some (.str m)) (hfs : fs (plotFile "stell" m) = some f) :
    ∃ D, stellRun P zero params = .ok D ∧
      (configTruth zero f.config "save_B" = .ok true → ∃ figs, stellPlots fs plotParams = .ok ⟨D, figs⟩ ∧ FiguresOf "stell" m f figs ∧ 2 ≤ figs.length) ∧
      (configTruth zero f.config "save_B" = .ok false → stellPlots fs plotParams = .error "AttributeError: 'NoneType' object has no attribute 'shape'") := by
  obtain ⟨c, D, hc, hD, hb, -⟩ := stellMain_ok lib W P zero h
  have hw : Wrote lib W P zero params "stell" ".h5.h5" c f := .inr (.inr ⟨rfl, rfl, hc, h⟩)
  obtain ⟨-, -, -, -, -, -, rfl⟩ := C108_name lib W P zero hw
  unfold stellBuild at hb
  rcases ht : ellipseOf f.config "n_fp" with e | F
  · rw [ht] at hb; cases hb
  rw [ht] at hb
  dsimp only at hb
  have key : stellPlots fs plotParams = match f.fields with
      | none => .error "AttributeError: 'NoneType' object has no attribute 'shape'"
      | some (Bs, ps) => .ok ⟨D, plotFigures "stell" m Bs ps⟩ := by
    unfold stellPlots
    rw [openPlot_found hm hfs, ht]
    dsimp only
    rw [hb]
  obtain ⟨hs, -⟩ := C108_saved_fields lib W P zero hw
  refine ⟨D, hD, fun e => ?_, fun e => ?_⟩
  · rcases hf : f.fields with _ | ⟨Bs, ps⟩
    · rw [hf, e] at hs; cases hs
    rw [hf] at key
    have := fields_len lib W P zero hw hf
    exact ⟨_, key, figures_of hf this.1, by simp [plotFigures, this.2]⟩
  · rcases hf : f.fields with _ | ⟨Bs, ps⟩
    · rw [hf] at key; exact key
    rw [hf, e] at hs; cases hs

/-- **C112** the name must be given, and must not be a number. -/
theorem C112_no_name (dir : String) (mapOf : PyDict (ArgVal ℝ) → Except String (V3 → V3)) (fs : PyStr → Option RunFile) (plotParams : PyDict (ArgVal ℝ)) :
    (plotParams.get? "run_name".toList = none → plotMain dir mapOf fs plotParams = .error "KeyError: 'run_name'") ∧
    ((∃ v, plotParams.get? "run_name".toList = some v ∧ ∀ s, v ≠ .str s) → plotMain dir mapOf fs plotParams = .error "TypeError") := by
  constructor
  · intro h; unfold plotMain; rw [h]
  · rintro ⟨v, h, hv⟩
    unfold plotMain
    rw [h]
    cases v with
    | str s => exact absurd rfl (hv s)
    | _ => rfl

end

/-! ## The files of the figures -/

theorem joinPath_inj {a b c : PyStr} (hb : b.head? ≠ some '/') (hc : c.head? ≠ some '/') (h : joinPath a b = joinPath a c) : b = c := by
  unfold joinPath at h
  rw [if_neg hb, if_neg hc] at h
  split_ifs at h
  · exact List.append_cancel_left h
  · exact (List.cons.inj (List.append_cancel_left h)).2

/-- **C112** different steps of a run are drawn to different files. -/
theorem C112_step_files (dir : String) (name : PyStr) {i j : Nat} (h : stepFile dir name i = stepFile dir name j) : i = j := by
  unfold stepFile at h
  have e := joinPath_inj (by simp) (by simp) h
  rw [List.append_assoc, List.append_assoc] at e
  have e2 := List.append_cancel_right (List.append_cancel_left e)
  exact Nat.repr_injective (String.toList_inj.mp e2)

/-- **C112** and they are where they are expected: below the directory of the run, if the name does not begin with a slash. -/
theorem C112_step_path (dir : String) {name : PyStr} (hd : dir.toList.head? ≠ some '/') (hd' : dir.toList ≠ [] ∧ dir.toList.getLast? ≠ some '/') (hn : name.head? ≠ some '/')
    (hn' : name ≠ [] ∧ name.getLast? ≠ some '/') (i : Nat) :
    stepFile dir name i = "script_outputs/".toList ++ dir.toList ++ "/".toList ++ name ++ "/poincare/step_".toList ++ (toString i).toList ++ ".pdf".toList := by
  have e1 : joinPath "script_outputs".toList dir.toList = "script_outputs/".toList ++ dir.toList := by
    unfold joinPath
    rw [if_neg hd, if_neg (by decide)]
    simp
  have last : ∀ (a b : PyStr), b ≠ [] → b.getLast? ≠ some '/' → ¬ (a ++ b = [] ∨ (a ++ b).getLast? = some '/') := by
    intro a b h1 h2 h3
    rcases h3 with h3 | h3
    · exact h1 (List.append_eq_nil_iff.mp h3).2
    · rw [List.getLast?_append] at h3
      rcases hb : b.getLast? with _ | x
      · exact h1 (List.getLast?_eq_none_iff.mp hb)
      · rw [hb] at h3 h2; exact h2 h3
  have e2 : joinPath ("script_outputs/".toList ++ dir.toList) name = "script_outputs/".toList ++ dir.toList ++ "/".toList ++ name := by
    unfold joinPath
    rw [if_neg hn, if_neg (last _ _ hd'.1 hd'.2)]
    simp
  have e3 : plotDir dir name = "script_outputs/".toList ++ dir.toList ++ "/".toList ++ name ++ "/poincare".toList := by
    unfold plotDir
    rw [e1, e2]
    unfold joinPath
    rw [if_neg (by decide), if_neg (last _ _ hn'.1 hn'.2)]
    simp
  unfold stepFile
  rw [e3]
  unfold joinPath
  rw [if_neg (by simp), if_neg (last _ _ (by decide) (by decide))]
  simp

/-! ## Cases -/

/-- `iter_islands.py` with a device, one iteration and a tolerance for which every step counts as converged. -/
noncomputable def caseParams (device : String) (more : PyDict (ArgVal ℝ)) : PyDict (ArgVal ℝ) :=
  [("device".toList, .str device.toList), ("save_B".toList, .bool true), ("maxit".toList, .int 1), ("solver_tol".toList, .int 2)] ++ more

theorem plot_case {params c : PyDict (ArgVal ℝ)} (hc : updateConfig asciiReal (fun _ => false) (devicePresets realLits) params iterConfig = .ok c) {nz : Nat} {ε κ δ q : ℝ}
    (hn : c.get? "run_name".toList = some (.str [])) (h1 : c.get? "eps".toList = some (.float ε)) (h2 : c.get? "kappa".toList = some (.float κ)) (h3 : c.get? "delta".toList = some (.float δ))
    (h4 : c.get? "n_r".toList = some (.int (8 : Nat))) (h5 : c.get? "n_theta".toList = some (.int (8 : Nat))) (h6 : c.get? "n_zeta".toList = some (.int (nz : Nat)))
    (h7 : c.get? "p_r".toList = some (.int (3 : Nat))) (h8 : c.get? "p_theta".toList = some (.int (3 : Nat))) {pz : Nat} (h9 : c.get? "p_zeta".toList = some (.int pz))
    (h10 : c.get? "q_star".toList = some (.float q)) (hs : RunSizes 8 8 nz 3 3 pz) (hε : 0 ≤ ε) (hκ : 0 ≤ κ) (hδ : 0 ≤ δ) (hδ1 : δ ≤ 1 / 2) (hε1 : ε ≤ 1)
    (hle : 4e-5 * (77 * 200) ≤ 39 * ε ^ 2 * κ * (1 - ε))
    (hl : loopConfig (fun _ => false) c = .ok (⟨1, ((2 : Int) : ℝ), 20, 4, realLits.lit 101 2, realLits.lit 1 15, false, 1000, realLits.lit 2 5, 2000, 10, true⟩, false))
    (hst : stateNums c = .ok (realLits.lit 1 4, realLits.lit 0 1, 0)) (hpert : ∀ D : DeRham, ∃ dB, pertOf c D = .ok dB) (W : World) :
    ∃ f D, iterMain someLib W asciiReal (fun _ => false) params = .ok f ∧ iterRun asciiReal (fun _ => false) params = .ok D := by
  obtain ⟨D, hD⟩ := tokamak_run hs hε hκ hδ hδ1 hε1 hle
  have hrun : iterRun asciiReal (fun _ => false) params = .ok D := by
    unfold iterRun
    rw [hc]
    change iterBuild c = _
    unfold iterBuild
    rw [tokamakOf_eq h1 h2 h3 (by rw [abs_of_nonneg hδ]; linarith)]
    exact buildRun_ok (sizesOf_eq h4 h5 h6 h7 h8 h9) hD
  obtain ⟨dB, hdB⟩ := hpert D
  have hf : iterField c D = .ok fun p => Manufactured.solovevB κ (Manufactured.iterTau q κ) (D.F p) := by
    unfold iterField configNum
    rw [h10, h2]
    rfl
  have hname : runName W c = .ok (uniqueId W.rnd 8) := by
    unfold runName
    rw [hn]
    rfl
  obtain ⟨f, hf⟩ := (C108_iter_outcome someLib W asciiReal (fun _ => false) hc hrun hf hdB hname hl hst).1.mpr
    ⟨1, le_refl _, le_refl _, .inr rfl, first_accepted _ _ _ _ _ (by norm_num)⟩
  exact ⟨f, D, hf, hrun⟩

/-- `iter_islands.py device=ITER save_B=True maxit=1 solver_tol=2`. -/
theorem plot_iter (W : World) (more : PyDict (ArgVal ℝ)) (hmore : more = [] ∨ more = [("type".toList, .str "stellarator".toList)]) :
    ∃ f D, iterMain someLib W asciiReal (fun _ => false) (caseParams "ITER" more) = .ok f ∧ iterRun asciiReal (fun _ => false) (caseParams "ITER" more) = .ok D := by
  rcases hmore with rfl | rfl <;>
  exact plot_case rfl (nz := 1) (pz := 0) rfl rfl rfl rfl rfl rfl rfl rfl rfl rfl rfl ⟨by norm_num, by norm_num, .inl rfl⟩ (by norm_num [realLits]) (by norm_num [realLits]) (by norm_num [realLits])
    (by norm_num [realLits]) (by norm_num [realLits]) (by norm_num [realLits]) rfl rfl (fun D => ⟨_, rfl⟩) W

/-- `iter_islands.py device=HELIX save_B=True maxit=1 solver_tol=2`, and with `device=ROT_ELL`. -/
theorem plot_other (W : World) (device : String) (h : device = "HELIX" ∨ device = "rot_ell") :
    ∃ f D, iterMain someLib W asciiReal (fun _ => false) (caseParams device []) = .ok f ∧ iterRun asciiReal (fun _ => false) (caseParams device []) = .ok D := by
  rcases h with rfl | rfl <;>
  exact plot_case rfl (nz := 6) (pz := 3) rfl rfl rfl rfl rfl rfl rfl rfl rfl rfl rfl ⟨by norm_num, by norm_num, .inr (by norm_num)⟩ (by norm_num [realLits]) (by norm_num [realLits])
    (by norm_num [realLits]) (by norm_num [realLits]) (by norm_num [realLits]) (by norm_num [realLits]) rfl rfl (fun D => ⟨_, rfl⟩) W

/-- A file system with this file only. -/
def only (f : RunFile) : PyStr → Option RunFile := fun p => if p = f.name then some f else none

theorem only_found (f : RunFile) {dir : String} {m : PyStr} (h : plotFile dir m = f.name) : only f (plotFile dir m) = some f := if_pos h

/-- The name with which the file of such a run is found. -/
theorem iter_found {W : World} {params : PyDict (ArgVal ℝ)} {f : RunFile} (h : iterMain someLib W asciiReal (fun _ => false) params = .ok f) :
    ∃ m, only f (plotFile "iter" m) = some f := by
  obtain ⟨-, n, -, -, h3⟩ := C112_iter_name _ _ _ _ h
  exact ⟨_, only_found f ((h3 _).mpr rfl)⟩

/-- Case of `C112_iter_no_device`. -/
example := fun m (hm : only (iter_case someWorld).choose (plotFile "iter" m) = some (iter_case someWorld).choose) =>
  C112_iter_no_device someLib someWorld asciiReal (fun _ => false) (by decide) (iter_case someWorld).choose_spec.choose_spec.1 rfl (plotParams := [("run_name".toList, .str m)]) rfl hm
example := iter_found (iter_case someWorld).choose_spec.choose_spec.1
/-- Cases of `C112_iter_tokamak`, `C112_iter_domain_iff`, `C112_type`, `C112_never_found`: `device=ITER`. -/
example : ∃ fs plotParams D figs, iterPlots fs plotParams = .ok ⟨D, figs⟩ ∧ iterRun asciiReal (fun _ => false) (caseParams "ITER" []) = .ok D ∧ 2 ≤ figs.length := by
  obtain ⟨f, D, hf, hD⟩ := plot_iter someWorld [] (.inl rfl)
  obtain ⟨m, hm⟩ := iter_found hf
  obtain ⟨D', hD', h1, -⟩ := C112_iter_tokamak someLib someWorld asciiReal (fun _ => false) (by decide) hf (k := "tokamak".toList) rfl rfl (plotParams := [("run_name".toList, .str m)]) rfl hm
  obtain ⟨c, -, hc, -⟩ := iterMain_ok _ _ _ _ hf
  obtain ⟨-, -, -, -, -, -, e⟩ := C108_name someLib someWorld asciiReal (fun _ => false) (dir := "iter") (ext := ".h5") (.inr (.inl ⟨rfl, rfl, hc, hf⟩))
  obtain ⟨figs, h2, -, h3⟩ := h1 (by rw [e, ← Except.ok.inj hc]; rfl)
  exact ⟨_, _, D', figs, h2, hD', h3⟩
example : ∃ f, iterMain someLib someWorld asciiReal (fun _ => false) (caseParams "ITER" []) = .ok f ∧ configInt f.config "m_rot" ≠ .ok 1 := by
  obtain ⟨f, D, hf, hD⟩ := plot_iter someWorld [] (.inl rfl)
  obtain ⟨c, -, hc, -⟩ := iterMain_ok _ _ _ _ hf
  obtain ⟨-, -, -, -, -, -, e⟩ := C108_name someLib someWorld asciiReal (fun _ => false) (dir := "iter") (ext := ".h5") (.inr (.inl ⟨rfl, rfl, hc, hf⟩))
  refine ⟨f, hf, ?_⟩
  rw [e, ← Except.ok.inj hc]
  intro h
  have h' : (Except.error "KeyError" : Except String Int) = .ok 1 := h
  cases h'
/-- Case of `C112_iter_other`: `device=ITER type=stellarator`. -/
example := fun m (hm : only (plot_iter someWorld _ (.inr rfl)).choose (plotFile "iter" m) = some (plot_iter someWorld _ (.inr rfl)).choose) =>
  C112_iter_other someLib someWorld asciiReal (fun _ => false) (by decide) (plot_iter someWorld _ (.inr rfl)).choose_spec.choose_spec.1 (k := "tokamak".toList) rfl
    (fun t ht => by
      have e : ((caseParams "ITER" [("type".toList, .str "stellarator".toList)]).get? "type".toList).getD (.str "tokamak".toList) = .str "stellarator".toList := rfl
      rw [e]
      simp only [List.mem_cons, List.not_mem_nil, or_false] at ht
      rcases ht with rfl | rfl | rfl <;> simp)
    (plotParams := [("run_name".toList, .str m)]) rfl hm
/-- Case of `C112_iter_helix`. -/
example := fun m (hm : only (plot_other someWorld _ (.inl rfl)).choose (plotFile "iter" m) = some (plot_other someWorld _ (.inl rfl)).choose) =>
  (C112_iter_helix someLib someWorld asciiReal (fun _ => false) (by decide) (plot_other someWorld _ (.inl rfl)).choose_spec.choose_spec.1 (k := "helix".toList) rfl rfl
    (plotParams := [("run_name".toList, .str m)]) rfl hm).2 rfl

/-- Case of `C112_iter_ellipse`: with `device=rot_ell` the script draws figures, on a domain that is not that of the run. -/
theorem plot_ellipse : ∃ f D r fs plotParams, iterMain someLib someWorld asciiReal (fun _ => false) (caseParams "rot_ell" []) = .ok f ∧
    iterRun asciiReal (fun _ => false) (caseParams "rot_ell" []) = .ok D ∧ iterPlots fs plotParams = .ok r ∧ r.D.F ≠ D.F ∧ 2 ≤ r.figures.length := by
  obtain ⟨f, D, hf, hD⟩ := plot_other someWorld _ (.inr rfl)
  obtain ⟨m, hm⟩ := iter_found hf
  obtain ⟨D0, F0, -, hF, hb, hw⟩ := iter_inside _ _ _ _ hf
  obtain ⟨c, -, hc, -⟩ := iterMain_ok _ _ _ _ hf
  obtain ⟨-, -, -, -, -, -, e⟩ := C108_name someLib someWorld asciiReal (fun _ => false) (dir := "iter") (ext := ".h5") (.inr (.inl ⟨rfl, rfl, hc, hf⟩))
  have hc0 := Except.ok.inj hc
  obtain ⟨hs, -⟩ := C108_saved_fields _ _ _ _ hw
  obtain ⟨G, hG⟩ := ellipse_exists (eps := 0.33) (κ := 1.7) (m := 5) (by norm_num) (by norm_num)
  obtain ⟨D', hD'⟩ := ellipse_run (nr := 8) (nt := 8) (nz := 6) (pr := 3) (pt := 3) (pz := 3) ⟨by norm_num, by norm_num, by norm_num⟩ hG (by norm_num) (by norm_num) (by norm_num)
    (by rw [abs_of_neg (by norm_num)]; norm_num) (by push_cast; rw [abs_of_neg (by norm_num)]; norm_num)
  have hE : ellipseOf f.config "m_rot" = .ok G := by
    rw [e, ← hc0, ← hG]
    refine (ellipseOf_eq (e := realLits.lit 33 2) (k := realLits.lit 17 1) (n := 5) rfl rfl rfl).trans ?_
    rw [show realLits.lit 33 2 = (0.33 : ℝ) by norm_num [realLits], show realLits.lit 17 1 = (1.7 : ℝ) by norm_num [realLits]]
  have hB : buildRun f.config G = .ok D' := by
    rw [e, ← hc0]
    exact buildRun_ok (sizesOf_eq (nr := 8) (nt := 8) (nz := 6) (pr := 3) (pt := 3) (pz := 3) rfl rfl rfl rfl rfl rfl) hD'
  have hr : (f.config.get? "m_rot".toList).isNone = false := by rw [e, ← hc0]; rfl
  rcases hfi : f.fields with _ | ⟨Bs, ps⟩
  · rw [hfi, e, ← hc0] at hs
    have hs' : (Except.ok true : Except String Bool) = .ok false := hs
    cases hs'
  have hres : iterPlots (only f) [("run_name".toList, .str m)] = .ok ⟨D', plotFigures "iter" m Bs ps⟩ := by
    unfold iterPlots
    rw [openPlot_found (m := m) rfl hm, plotMapOf_eq hF, C112_type _ _ _ _ (by decide) hw]
    change (match (if (f.config.get? "m_rot".toList).isNone then .error "KeyError: 'm_rot'" else ellipseOf f.config "m_rot" : Except String (V3 → V3)) with
      | .error e => .error e
      | .ok F =>
        match buildRun f.config F with
        | .error e => .error e
        | .ok D =>
          match f.fields with
          | none => .error "AttributeError: 'NoneType' object has no attribute 'shape'"
          | some (Bs, ps) => .ok ⟨D, plotFigures "iter" m Bs ps⟩ : Except String PlotInput) = _
    rw [hr, hE, if_neg (by decide)]
    dsimp only
    rw [hB]
    dsimp only
    rw [hfi]
  obtain ⟨D1, _, _, _, n, hD1, -, -, -, hn, -, -, hne⟩ := C112_iter_ellipse someLib someWorld asciiReal (fun _ => false) (by decide) hf (k := "rotating_ellipse".toList) rfl rfl
    (plotParams := [("run_name".toList, .str m)]) rfl hm hres
  rw [hD] at hD1
  obtain rfl := Except.ok.inj hD1
  refine ⟨f, D, _, _, _, hf, hD, hres, hne ?_, ?_⟩
  · rw [e, ← hc0] at hn
    have hn' : (Except.ok 5 : Except String Int) = .ok n := hn
    have := Except.ok.inj hn'
    omega
  · have := fields_len _ _ _ _ hw hfi
    simp [plotFigures, this.2]

/-- `stell.py save_B=True maxit=1 solver_tol=2` writes a file. -/
theorem plot_stell (W : World) : ∃ f, stellMain someLib W asciiReal (fun _ => false) [("save_B".toList, .bool true), ("maxit".toList, .int 1), ("solver_tol".toList, .int 2)] = .ok f ∧
    configTruth (fun _ => false) f.config "save_B" = .ok true := by
  obtain ⟨F, D, -, hD, -⟩ := C106_stell_default asciiReal (fun _ => false) (params := [("save_B".toList, .bool true), ("maxit".toList, .int 1), ("solver_tol".toList, .int 2)]) (by decide)
    (fun k hk => by revert hk k; decide) (nr := 8) (nt := 8) (nz := 4) (pr := 3) (pt := 3) (pz := 3) (m := 3)
    (fun x hx => by simp only [List.mem_cons, List.not_mem_nil, or_false] at hx; rcases hx with rfl | rfl | rfl | rfl | rfl | rfl | rfl <;> rfl)
    ⟨by norm_num, by norm_num, by norm_num⟩ (by norm_num) (by norm_num)
  have hc : updateConfig asciiReal (fun _ => false) (devicePresets realLits) [("save_B".toList, .bool true), ("maxit".toList, .int 1), ("solver_tol".toList, .int 2)] stellConfig =
      .ok (stellConfig.update [("save_B".toList, .bool true), ("maxit".toList, .int 1), ("solver_tol".toList, .int 2)]) := rfl
  have hq : stellField (stellConfig.update [("save_B".toList, .bool true), ("maxit".toList, .int 1), ("solver_tol".toList, .int 2)]) D =
      .ok fun p => Manufactured.solovevB 1 (realLits.lit 154 2) (D.F p) := rfl
  have h1 : loopConfig (fun _ => false) (stellConfig.update [("save_B".toList, .bool true), ("maxit".toList, .int 1), ("solver_tol".toList, .int 2)]) =
      .ok (⟨1, ((2 : Int) : ℝ), 20, 4, realLits.lit 101 2, realLits.lit 1 15, false, 1000, realLits.lit 0 1, 2000, 100, true⟩, false) := rfl
  obtain ⟨f, hf⟩ := (C108_stell_outcome someLib W asciiReal (fun _ => false) hc hD hq (dB := islandPert D.F (realLits.lit 5 1) (realLits.lit 7 2) ((2 : Int) : ℝ) ((1 : Int) : ℝ)) rfl
    (name := uniqueId W.rnd 8) rfl h1 (dt := realLits.lit 1 4) (eta := realLits.lit 0 1) (gamma := 0) rfl).1.mpr ⟨1, le_refl _, le_refl _, .inr rfl, first_accepted _ _ _ _ _ (by norm_num)⟩
  obtain ⟨-, -, -, -, -, -, e⟩ := C108_name someLib W asciiReal (fun _ => false) (dir := "stell") (ext := ".h5.h5") (.inr (.inr ⟨rfl, rfl, hc, hf⟩))
  exact ⟨f, hf, by rw [e]; rfl⟩
/-- Case of `C112_stell`, `C112_stell_name`, and of the claims on `stell.py` files in C108. -/
example : ∃ fs plotParams D figs, stellPlots fs plotParams = .ok ⟨D, figs⟩ ∧ 2 ≤ figs.length := by
  obtain ⟨f, hf, hs⟩ := plot_stell someWorld
  obtain ⟨-, n, -, -, h3⟩ := C112_stell_name _ _ _ _ hf
  obtain ⟨D, -, h1, -⟩ := C112_stell someLib someWorld asciiReal (fun _ => false) hf (plotParams := [("run_name".toList, .str (n ++ "/".toList ++ n ++ ".h5".toList))]) rfl
    (only_found f ((h3 _).mpr rfl))
  obtain ⟨figs, h2, -, h4⟩ := h1 hs
  exact ⟨_, _, D, figs, h2, h4⟩
example := C108_stell_final someLib someWorld asciiReal (fun _ => false) (plot_stell someWorld).choose_spec.1

/-- Cases of `C112_never_found`, `C112_step_files`, `C112_step_path`. -/
example := C112_no_file someLib someWorld asciiReal (fun _ => false) (fs := fun path => if path = wrote_case'.choose_spec.choose.name then some wrote_case'.choose_spec.choose else none)
  (by
    intro path f h
    split_ifs at h with e
    obtain rfl := Option.some.inj h
    exact ⟨e.symm, _, _, _, _, wrote_case'.choose_spec.choose_spec⟩)
example := C112_never_found someLib someWorld asciiReal (fun _ => false) wrote_case'.choose_spec.choose_spec
example := C112_step_path "iter" (name := "a/a".toList) (by decide) (by decide) (by decide) (by decide) 12
example : stepFile "iter" "/a".toList 0 = "/a/poincare/step_0.pdf".toList := by decide

end Mrx.Props
