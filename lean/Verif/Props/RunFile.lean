import Verif.Model.RunFile
import Verif.Props.RunSetup
import Verif.Props.Objects
import Verif.Props.Start

/-!
# C108: what a relaxation script writes to its file
-/

set_option linter.unusedVariables false
set_option linter.unusedSectionVars false

namespace Mrx.Props
open Mrx Spec Matrix DeRham Real IO

/-- The file of a run from the state `s` whose trace is `t`: the final field in it is that of `s`. -/
noncomputable def fileOf (W : World) (T : Stepper) (saveB : Bool) (s : T.St) (t : Trace T.Field) (filename : PyStr) (c : PyDict (ArgVal ℝ)) : RunFile where
  name := filename ++ ".h5".toList
  traces := traceDatasets t
  Bfinal := List.ofFn s.Bn
  pfinal := storedPressure T.D T.forceFree s.Bn
  harmonicNorm := T.D.norm2 (T.D.harmonicComponent s.Bn)
  times := (W.endTime - W.startTime, W.setupDone - W.startTime, W.endTime - W.setupDone)
  fields := if saveB then some (t.Bfields.map List.ofFn, t.Bfields.map (storedPressure T.D T.forceFree)) else none
  config := c

theorem filterMap_map_some {α β : Type} (f : α → β) (g : β → Option α) (h : ∀ a, g (f a) = some a) (l : List α) : (l.map f).filterMap g = l := by
  induction l with
  | nil => rfl
  | cons a l ih => rw [List.map_cons, List.filterMap_cons, h a, ih]

theorem finishRun_eq (W : World) (T : Stepper) (cfg : RelaxConfig) (dB : V3 → V3) (s : T.St) (filename : PyStr) (c : PyDict (ArgVal ℝ)) :
    finishRun W T cfg dB s filename c =
      match averageStepTime W.endTime W.setupDone (relaxAfter cfg (T.env cfg.pertStrength dB W.clock) W.startTime s (emptyTrace _) cfg.maxit).trace.iterations with
      | .error e => .error e
      | .ok _ => .ok (fileOf W T cfg.saveB s (relaxAfter cfg (T.env cfg.pertStrength dB W.clock) W.startTime s (emptyTrace _) cfg.maxit).trace filename c) := by
  obtain ⟨hs, hf⟩ := pyAfter_sim ⟨freshLists 0, some W.startTime⟩ (freshLists_injective 0) cfg (T.env cfg.pertStrength dB W.clock) W.startTime
    (⟨fun _ => s, 1, fun _ => [], 11⟩ : Mem T.Field (Matrix (Fin T.D.m2) (Fin T.D.m2) ℝ)) 0 (emptyTrace _) Nat.one_pos (fun k => by cases k <;> rfl) cfg.maxit
  unfold finishRun pyRun
  dsimp only
  have h0 := hf.states 0 Nat.one_pos
  have hl := hs.lists
  generalize (pyAfter cfg (T.env cfg.pertStrength dB W.clock) W.startTime ⟨freshLists 0, some W.startTime⟩
    (⟨fun _ => s, 1, fun _ => [], 11⟩ : Mem T.Field (Matrix (Fin T.D.m2) (Fin T.D.m2) ℝ)) 0 cfg.maxit).mem = m at h0 hl ⊢
  dsimp only at h0 hl
  generalize (relaxAfter cfg (T.env cfg.pertStrength dB W.clock) W.startTime s (emptyTrace _) cfg.maxit).trace = t at hl ⊢
  rw [hl .iterations, h0]
  have hi : ((Trace.vals t .iterations).filterMap Val.nat?) = t.iterations := filterMap_map_some Val.nat Val.nat? (fun _ => rfl) _
  have hB : ((Trace.vals t .Bfields).filterMap Val.field?) = t.Bfields := filterMap_map_some Val.field Val.field? (fun _ => rfl) _
  rw [hi]
  rcases averageStepTime W.endTime W.setupDone t.iterations with e | x
  · rfl
  · have hB' : ((t.Bfields.map Val.field).filterMap Val.field?) = t.Bfields := hB
    simp only [hl, traceKeys, List.map_cons, List.map_nil, fileOf, traceDatasets, traceFile, Trace.vals, List.map_map, Function.comp_def, Val.number, List.map_id', hB']

/-- What it takes for a script to write a file, and what is in it. -/
theorem finishWith_ok (lib : NumLib) (W : World) (zero : ℝ → Bool) (script suffix : String) (c : PyDict (ArgVal ℝ)) (D : DeRham)
    (start : RelaxConfig → Except String (Fin D.m2 → ℝ)) (dB : Option (V3 → V3)) (f : RunFile) :
    finishWith lib W zero script suffix c D start dB = .ok f ↔
    ∃ name cfg ff dt eta gamma B, runName W c = .ok name ∧ loopConfig zero c = .ok (cfg, ff) ∧ stateNums c = .ok (dt, eta, gamma) ∧ start cfg = .ok B ∧
      ¬ (dB = none ∧ perturbationDue W (stepperOf lib D gamma cfg ff) cfg ((stepperOf lib D gamma cfg ff).initState B dt eta)) ∧
      (∃ x, averageStepTime W.endTime W.setupDone (relaxAfter cfg ((stepperOf lib D gamma cfg ff).env cfg.pertStrength (dB.getD fun _ => 0) W.clock) W.startTime
        ((stepperOf lib D gamma cfg ff).initState B dt eta) (emptyTrace _) cfg.maxit).trace.iterations = .ok x) ∧
      f = fileOf W (stepperOf lib D gamma cfg ff) cfg.saveB ((stepperOf lib D gamma cfg ff).initState B dt eta)
        (relaxAfter cfg ((stepperOf lib D gamma cfg ff).env cfg.pertStrength (dB.getD fun _ => 0) W.clock) W.startTime
          ((stepperOf lib D gamma cfg ff).initState B dt eta) (emptyTrace _) cfg.maxit).trace (outDir script name ++ name ++ suffix.toList) c := by
  classical
  unfold finishWith
  constructor
  · intro h
    rcases h1 : runName W c with e | name
    · rw [h1] at h; cases h
    rcases h2 : loopConfig zero c with e | ⟨cfg, ff⟩
    · rw [h1, h2] at h; cases h
    rcases h3 : stateNums c with e | ⟨dt, eta, gamma⟩
    · rw [h1, h2, h3] at h; cases h
    rw [h1, h2, h3] at h
    dsimp only at h
    rcases h4 : start cfg with e | B
    · rw [h4] at h; cases h
    rw [h4] at h
    dsimp only at h
    split_ifs at h with hp
    rw [finishRun_eq] at h
    refine ⟨name, cfg, ff, dt, eta, gamma, B, rfl, rfl, rfl, h4, hp, ?_⟩
    split at h
    · cases h
    · rename_i x hx
      exact ⟨⟨x, hx⟩, (Except.ok.inj h).symm⟩
  · rintro ⟨name, cfg, ff, dt, eta, gamma, B, h1, h2, h3, h4, hp, ⟨x, hx⟩, rfl⟩
    rw [h1, h2, h3]
    dsimp only
    rw [h4]
    dsimp only
    rw [if_neg hp, finishRun_eq, hx]

/-- The entries of the configuration behind the numbers of the loop. -/
theorem loopConfig_inv {zero : ℝ → Bool} {c : PyDict (ArgVal ℝ)} {cfg : RelaxConfig} {ff : Bool} (h : loopConfig zero c = .ok (cfg, ff)) :
    ∃ maxit every save : Int, configNum c "solver_tol" = .ok cfg.solverTol ∧ configNum c "dt_factor" = .ok cfg.dtFactor ∧ configNum c "force_tol" = .ok cfg.forceTol ∧
      configNum c "pert_strength" = .ok cfg.pertStrength ∧ configInt c "maxit" = .ok maxit ∧ cfg.maxit = maxit.toNat ∧ configInt c "solver_maxit" = .ok cfg.solverMaxit ∧
      configInt c "solver_critit" = .ok cfg.solverCritit ∧ configInt c "apply_pert_after" = .ok cfg.applyPertAfter ∧
      configInt c "precond_compute_every" = .ok every ∧ every ≠ 0 ∧ cfg.precondEvery = every.natAbs ∧ configInt c "save_every" = .ok save ∧ save ≠ 0 ∧
      cfg.saveEvery = save.natAbs ∧ configTruth zero c "precond" = .ok cfg.precond ∧ configTruth zero c "force_free" = .ok ff ∧ configTruth zero c "save_B" = .ok cfg.saveB := by
  unfold loopConfig at h
  rcases h1 : loopNums c with e | ⟨tol, factor, ftol, strength⟩
  · rw [h1] at h; cases h
  rcases h2 : loopInts c with e | ⟨maxit, smaxit, critit, after⟩
  · rw [h1, h2] at h; cases h
  rcases h3 : loopDivisors c with e | ⟨every, save⟩
  · rw [h1, h2, h3] at h; cases h
  rcases h4 : loopFlags zero c with e | ⟨precond, ff', saveB⟩
  · rw [h1, h2, h3, h4] at h; cases h
  rw [h1, h2, h3, h4] at h
  obtain ⟨rfl, rfl⟩ := Prod.mk.inj (Except.ok.inj h)
  unfold loopNums at h1
  unfold loopInts at h2
  unfold loopDivisors at h3
  unfold loopFlags at h4
  split at h1
  case h_2 => cases h1
  rename_i a1 a2 a3 a4
  cases h1
  split at h2
  case h_2 => cases h2
  rename_i b1 b2 b3 b4
  cases h2
  split at h3
  case h_2 => cases h3
  rename_i n1 n2 c1 c2
  unfold divisorOf at h3
  by_cases z1 : n1 = 0
  · rw [if_pos z1] at h3; cases h3
  by_cases z2 : n2 = 0
  · rw [if_neg z1, if_pos z2] at h3; cases h3
  rw [if_neg z1, if_neg z2] at h3
  cases h3
  split at h4
  case h_2 => cases h4
  rename_i d1 d2 d3
  cases h4
  exact ⟨_, _, _, a1, a2, a3, a4, b1, rfl, b2, b3, b4, c1, z1, rfl, c2, z2, rfl, d1, d2, d3⟩

theorem loopConfig_pert {zero : ℝ → Bool} {c : PyDict (ArgVal ℝ)} {cfg : RelaxConfig} {ff : Bool} (h : loopConfig zero c = .ok (cfg, ff)) :
    configNum c "pert_strength" = .ok cfg.pertStrength ∧ configInt c "apply_pert_after" = .ok cfg.applyPertAfter := by
  obtain ⟨_, _, _, _, _, _, a, _, _, _, _, b, _⟩ := loopConfig_inv h
  exact ⟨a, b⟩

theorem loopConfig_forceFree {zero : ℝ → Bool} {c : PyDict (ArgVal ℝ)} {cfg : RelaxConfig} {ff : Bool} (h : loopConfig zero c = .ok (cfg, ff)) :
    configTruth zero c "force_free" = .ok ff := by
  obtain ⟨_, _, _, _, _, _, _, _, _, _, _, _, _, _, _, _, _, _, _, t, _⟩ := loopConfig_inv h
  exact t

/-! ## The final field -/

section
variable (lib : NumLib) (W : World) (P : PyChars ℝ) (zero : ℝ → Bool)

/-- The solovev script after the configuration. -/
theorem solovevMain_ok {a : Bool} {params : PyDict (ArgVal ℝ)} {f : RunFile} (h : solovevMain lib W P zero a params = .ok f) :
    ∃ c D, solovevConfig P zero a params = .ok c ∧ solovevRun P zero a params = .ok D ∧ solovevBuild c = .ok D ∧
      finishWith lib W zero "solovev" "" c D (fun _ => eigenStart lib D) none = .ok f := by
  unfold solovevMain at h
  rcases hc : solovevConfig P zero a params with e | c
  · rw [hc] at h; cases h
  rw [hc] at h
  dsimp only at h
  rcases hD : solovevBuild c with e | D
  · rw [hD] at h; cases h
  rw [hD] at h
  refine ⟨c, D, rfl, ?_, hD, h⟩
  unfold solovevConfig at hc
  unfold solovevRun
  rcases hu : updateConfig P zero (devicePresets realLits) params (defaultConfig realLits) with e | c0
  · rw [hu] at hc; cases hc
  · rw [hu] at hc
    cases hc
    exact hD

theorem finishProjected_ok {script suffix : String} {c : PyDict (ArgVal ℝ)} {D : DeRham} {B : Except String (V3 → V3)} {f : RunFile}
    (h : finishProjected lib W zero script suffix c D B = .ok f) : ∃ B0 dB, B = .ok B0 ∧ pertOf c D = .ok dB ∧
      finishWith lib W zero script suffix c D (fun cfg => .ok (D.projectedStart (lib.pinv D.dd3) cfg.applyPertAfter cfg.pertStrength B0 dB)) (some dB) = .ok f := by
  unfold finishProjected at h
  rcases B with e | B
  · cases h
  rcases hd : pertOf c D with e | dB
  · rw [hd] at h; cases h
  rw [hd] at h
  exact ⟨B, dB, rfl, rfl, h⟩

theorem iterMain_ok {params : PyDict (ArgVal ℝ)} {f : RunFile} (h : iterMain lib W P zero params = .ok f) :
    ∃ c D, updateConfig P zero (devicePresets realLits) params iterConfig = .ok c ∧ iterRun P zero params = .ok D ∧ iterBuild c = .ok D ∧
      finishProjected lib W zero "iter" "" c D (iterField c D) = .ok f := by
  unfold iterMain at h
  rcases hc : updateConfig P zero (devicePresets realLits) params iterConfig with e | c
  · rw [hc] at h; cases h
  rw [hc] at h
  dsimp only at h
  rcases hD : iterBuild c with e | D
  · rw [hD] at h; cases h
  rw [hD] at h
  refine ⟨c, D, rfl, ?_, hD, h⟩
  unfold iterRun
  rw [hc]
  exact hD

theorem stellMain_ok {params : PyDict (ArgVal ℝ)} {f : RunFile} (h : stellMain lib W P zero params = .ok f) :
    ∃ c D, updateConfig P zero (devicePresets realLits) params stellConfig = .ok c ∧ stellRun P zero params = .ok D ∧ stellBuild c = .ok D ∧
      finishProjected lib W zero "stell" ".h5" c D (stellField c D) = .ok f := by
  unfold stellMain at h
  rcases hc : updateConfig P zero (devicePresets realLits) params stellConfig with e | c
  · rw [hc] at h; cases h
  rw [hc] at h
  dsimp only at h
  rcases hD : stellBuild c with e | D
  · rw [hD] at h; cases h
  rw [hD] at h
  refine ⟨c, D, rfl, ?_, hD, h⟩
  unfold stellRun
  rw [hc]
  exact hD

/-- **C108 (finding)** the dataset `B_final` of a `solovev.py` run is its initial field, `p_final` the pressure of the initial field and `harmonic_norm` the norm of the harmonic component
of the initial field, whatever the relaxation did. -/
theorem C108_solovev_final {a : Bool} {params : PyDict (ArgVal ℝ)} {f : RunFile} (h : solovevMain lib W P zero a params = .ok f) :
    ∃ c D ff B, solovevConfig P zero a params = .ok c ∧ solovevRun P zero a params = .ok D ∧ configTruth zero c "force_free" = .ok ff ∧ eigenStart lib D = .ok B ∧
      f.Bfinal = List.ofFn B ∧ f.harmonicNorm = D.norm2 (D.harmonicComponent B) ∧
      f.pfinal = if ff then (D.pressureForceFree B).map List.ofFn else some (List.ofFn (D.pressure B)) := by
  obtain ⟨c, D, hc, hD, -, hf⟩ := solovevMain_ok lib W P zero h
  obtain ⟨name, cfg, ff, dt, eta, gamma, B, -, hcfg, -, hB, -, -, rfl⟩ := (finishWith_ok lib W zero _ _ c D _ _ f).mp hf
  exact ⟨c, D, ff, B, hc, hD, loopConfig_forceFree hcfg, hB, rfl, rfl, rfl⟩

/-- The field that `iter_islands.py` and `stell.py` project. -/
def Prescribed (c : PyDict (ArgVal ℝ)) (kappa : ℝ) (tau : ℝ → ℝ → ℝ) (D : DeRham) (B0 : V3 → V3) : Prop :=
  ∃ q, configNum c "q_star" = .ok q ∧ ∀ p, B0 p = Manufactured.solovevB kappa (tau q kappa) (D.F p)

/-- The perturbation of the two scripts: located at `pert_radial_loc` with width `pert_radial_width`, with the mode numbers `pert_pol_mode` and `pert_tor_mode`. -/
def PrescribedPert (c : PyDict (ArgVal ℝ)) (D : DeRham) (dB : V3 → V3) : Prop :=
  ∃ loc width pol tor, configNum c "pert_radial_loc" = .ok loc ∧ configNum c "pert_radial_width" = .ok width ∧ configNum c "pert_pol_mode" = .ok pol ∧
    configNum c "pert_tor_mode" = .ok tor ∧ dB = islandPert D.F loc width pol tor

theorem pertOf_ok {c : PyDict (ArgVal ℝ)} {D : DeRham} {dB : V3 → V3} (h : pertOf c D = .ok dB) : PrescribedPert c D dB := by
  unfold pertOf at h
  split at h
  · rename_i a b c d
    exact ⟨_, _, _, _, a, b, c, d, (Except.ok.inj h).symm⟩
  · cases h

/-- **C108 (finding)** the same for `iter_islands.py`: what is stored as the final field is the initial one, the projection of the prescribed field, with the perturbation only if it is
applied at the start. -/
theorem C108_iter_final {params : PyDict (ArgVal ℝ)} {f : RunFile} (h : iterMain lib W P zero params = .ok f) :
    ∃ c D B0 dB kappa strength after ff, updateConfig P zero (devicePresets realLits) params iterConfig = .ok c ∧ iterRun P zero params = .ok D ∧
      configNum c "kappa" = .ok kappa ∧ Prescribed c kappa Manufactured.iterTau D B0 ∧ PrescribedPert c D dB ∧
      configNum c "pert_strength" = .ok strength ∧ configInt c "apply_pert_after" = .ok after ∧
      f.Bfinal = List.ofFn (D.projectedStart (lib.pinv D.dd3) after strength B0 dB) ∧
      f.harmonicNorm = D.norm2 (D.harmonicComponent (D.projectedStart (lib.pinv D.dd3) after strength B0 dB)) ∧
      configTruth zero c "force_free" = .ok ff ∧
      f.pfinal = if ff then (D.pressureForceFree (D.projectedStart (lib.pinv D.dd3) after strength B0 dB)).map List.ofFn
        else some (List.ofFn (D.pressure (D.projectedStart (lib.pinv D.dd3) after strength B0 dB))) := by
  obtain ⟨c, D, hc, hD, -, hf⟩ := iterMain_ok lib W P zero h
  obtain ⟨B0, dB, hB0, hdB, hf⟩ := finishProjected_ok lib W zero hf
  obtain ⟨name, cfg, ff, dt, eta, gamma, B, -, hcfg, -, hB, -, -, rfl⟩ := (finishWith_ok lib W zero _ _ c D _ _ f).mp hf
  obtain rfl := Except.ok.inj hB
  obtain ⟨e1, e2⟩ := loopConfig_pert hcfg
  unfold iterField at hB0
  rcases hq : configNum c "q_star" with e | q
  · rw [hq] at hB0; cases hB0
  rcases hk : configNum c "kappa" with e | k
  · rw [hq, hk] at hB0; cases hB0
  rw [hq, hk] at hB0
  obtain rfl := Except.ok.inj hB0
  exact ⟨c, D, _, dB, k, cfg.pertStrength, cfg.applyPertAfter, ff, hc, hD, hk, ⟨q, hq, fun p => rfl⟩, pertOf_ok hdB, e1, e2, rfl, rfl, loopConfig_forceFree hcfg, rfl⟩

/-- **C108 (finding)** and for `stell.py`. -/
theorem C108_stell_final {params : PyDict (ArgVal ℝ)} {f : RunFile} (h : stellMain lib W P zero params = .ok f) :
    ∃ c D B0 dB strength after ff, updateConfig P zero (devicePresets realLits) params stellConfig = .ok c ∧ stellRun P zero params = .ok D ∧
      Prescribed c 1 (fun q _ => q) D B0 ∧ PrescribedPert c D dB ∧ configNum c "pert_strength" = .ok strength ∧ configInt c "apply_pert_after" = .ok after ∧
      f.Bfinal = List.ofFn (D.projectedStart (lib.pinv D.dd3) after strength B0 dB) ∧
      f.harmonicNorm = D.norm2 (D.harmonicComponent (D.projectedStart (lib.pinv D.dd3) after strength B0 dB)) ∧
      configTruth zero c "force_free" = .ok ff ∧
      f.pfinal = if ff then (D.pressureForceFree (D.projectedStart (lib.pinv D.dd3) after strength B0 dB)).map List.ofFn
        else some (List.ofFn (D.pressure (D.projectedStart (lib.pinv D.dd3) after strength B0 dB))) := by
  obtain ⟨c, D, hc, hD, -, hf⟩ := stellMain_ok lib W P zero h
  obtain ⟨B0, dB, hB0, hdB, hf⟩ := finishProjected_ok lib W zero hf
  obtain ⟨name, cfg, ff, dt, eta, gamma, B, -, hcfg, -, hB, -, -, rfl⟩ := (finishWith_ok lib W zero _ _ c D _ _ f).mp hf
  obtain rfl := Except.ok.inj hB
  obtain ⟨e1, e2⟩ := loopConfig_pert hcfg
  unfold stellField at hB0
  rcases hq : configNum c "q_star" with e | q
  · rw [hq] at hB0; cases hB0
  rw [hq] at hB0
  obtain rfl := Except.ok.inj hB0
  exact ⟨c, D, _, dB, cfg.pertStrength, cfg.applyPertAfter, ff, hc, hD, ⟨q, hq, fun p => rfl⟩, pertOf_ok hdB, e1, e2, rfl, rfl, loopConfig_forceFree hcfg, rfl⟩

/-! ## What the final field depends on -/

theorem stored_inj {D : DeRham} {ff ff' : Bool} (h : ff = ff') (B : Fin D.m2 → ℝ) : storedPressure D ff B = storedPressure D ff' B := by rw [h]

theorem configTruth_congr {c c' : PyDict (ArgVal ℝ)} {k : String} (h : c.get? k.toList = c'.get? k.toList) : configTruth zero c k = configTruth zero c' k := by
  unfold configTruth; rw [h]

theorem pertOf_congr {c c' : PyDict (ArgVal ℝ)} (h : ∀ k ∈ ["pert_radial_loc", "pert_radial_width", "pert_pol_mode", "pert_tor_mode"], c.get? k.toList = c'.get? k.toList) (D : DeRham) :
    pertOf c D = pertOf c' D := by
  unfold pertOf
  rw [configNum_congr (h "pert_radial_loc" (by decide)), configNum_congr (h "pert_radial_width" (by decide)), configNum_congr (h "pert_pol_mode" (by decide)),
    configNum_congr (h "pert_tor_mode" (by decide))]

/-- **C108 (finding)** two `solovev.py` runs with the same domain and sizes write the same `B_final` and `harmonic_norm`, and the same `p_final` if `force_free` is the same: whatever the
number of iterations, the time step, the resistivity, the tolerances and so on are, and whenever they are run. -/
theorem C108_solovev_inputs (W' : World) {a : Bool} {params params' : PyDict (ArgVal ℝ)} (hp : (params.map (·.1)).Nodup) (hp' : (params'.map (·.1)).Nodup)
    (h : ∀ k ∈ ["device", "boundary_type", "eps", "kappa", "delta", "h_helix", "nfp", "n_r", "n_theta", "n_zeta", "p_r", "p_theta", "p_zeta"],
      params.get? k.toList = params'.get? k.toList) {f f' : RunFile}
    (hf : solovevMain lib W P zero a params = .ok f) (hf' : solovevMain lib W' P zero a params' = .ok f') :
    f.Bfinal = f'.Bfinal ∧ f.harmonicNorm = f'.harmonicNorm ∧ (params.get? "force_free".toList = params'.get? "force_free".toList → f.pfinal = f'.pfinal) := by
  obtain ⟨c, D, hc, hD, -, hf⟩ := solovevMain_ok lib W P zero hf
  obtain ⟨c', D', hc', hD', -, hf'⟩ := solovevMain_ok lib W' P zero hf'
  rw [C106_solovev_inputs P zero a hp hp' h, hD'] at hD
  obtain rfl := Except.ok.inj hD
  obtain ⟨name, cfg, ff, dt, eta, gamma, B, -, h1, -, hB, -, -, rfl⟩ := (finishWith_ok lib W zero _ _ c _ _ _ f).mp hf
  obtain ⟨name', cfg', ff', dt', eta', gamma', B', -, h1', -, hB', -, -, rfl⟩ := (finishWith_ok lib W' zero _ _ c' _ _ _ f').mp hf'
  obtain rfl := Except.ok.inj (hB.symm.trans hB')
  refine ⟨rfl, rfl, fun hff => stored_inj ?_ B⟩
  unfold solovevConfig at hc hc'
  rcases update_agree P zero (config := defaultConfig realLits) hp hp' (h "device" (by decide)) with ⟨c0, c0', h2, h2', h3⟩ | ⟨e, h2, h2'⟩
  · rw [h2] at hc
    rw [h2'] at hc'
    cases hc
    cases hc'
    obtain ⟨_, _, _, _, _, _, _, _, _, _, _, _, _, _, _, _, _, _, _, t, _⟩ := loopConfig_inv h1
    obtain ⟨_, _, _, _, _, _, _, _, _, _, _, _, _, _, _, _, _, _, _, t', _⟩ := loopConfig_inv h1'
    have e : configTruth zero (if a = true then c0.update actionsSizes else c0) "force_free" = configTruth zero (if a = true then c0'.update actionsSizes else c0') "force_free" := by
      refine configTruth_congr zero ?_
      have := h3 _ hff
      cases a
      · exact this
      · simp only [if_true]
        rw [PyDict.get?_update _ _ (by decide), PyDict.get?_update _ _ (by decide), this]
    exact Except.ok.inj (t.symm.trans (e.trans t'))
  · rw [h2] at hc; cases hc

/-- The entries of the configuration that fix the initial field of `iter_islands.py` and `stell.py` on a given sequence. -/
def fieldKeys : List String :=
  ["q_star", "kappa", "pert_strength", "apply_pert_after", "pert_radial_loc", "pert_radial_width", "pert_pol_mode", "pert_tor_mode"]

/-- Two runs with the same initial field. -/
theorem projected_inputs (W' : World) {s s' x x' : String} {c c' : PyDict (ArgVal ℝ)} (h : ∀ k ∈ fieldKeys, c.get? k.toList = c'.get? k.toList) {D : DeRham}
    {B B' : Except String (V3 → V3)} (hB : B = B') {f f' : RunFile} (hf : finishProjected lib W zero s x c D B = .ok f)
    (hf' : finishProjected lib W' zero s' x' c' D B' = .ok f') :
    f.Bfinal = f'.Bfinal ∧ f.harmonicNorm = f'.harmonicNorm ∧ (c.get? "force_free".toList = c'.get? "force_free".toList → f.pfinal = f'.pfinal) := by
  subst hB
  obtain ⟨B0, dB, hB0, hdB, hf⟩ := finishProjected_ok lib W zero hf
  obtain ⟨B0', dB', hB0', hdB', hf'⟩ := finishProjected_ok lib W' zero hf'
  rw [pertOf_congr (fun k hk => h k (by revert hk k; decide)), hdB'] at hdB
  obtain rfl := Except.ok.inj hdB
  rw [hB0] at hB0'
  obtain rfl := Except.ok.inj hB0'
  obtain ⟨name, cfg, ff, dt, eta, gamma, B, -, h1, -, hB, -, -, rfl⟩ := (finishWith_ok lib W zero _ _ c _ _ _ f).mp hf
  obtain ⟨name', cfg', ff', dt', eta', gamma', B', -, h1', -, hB', -, -, rfl⟩ := (finishWith_ok lib W' zero _ _ c' _ _ _ f').mp hf'
  obtain ⟨e1, e2⟩ := loopConfig_pert h1
  obtain ⟨e1', e2'⟩ := loopConfig_pert h1'
  rw [configNum_congr (h "pert_strength" (by decide)), e1'] at e1
  rw [configInt_congr (h "apply_pert_after" (by decide)), e2'] at e2
  rw [Except.ok.inj e1, Except.ok.inj e2] at hB'
  obtain rfl := Except.ok.inj (hB.symm.trans hB')
  refine ⟨rfl, rfl, fun hff => stored_inj ?_ B⟩
  obtain ⟨_, _, _, _, _, _, _, _, _, _, _, _, _, _, _, _, _, _, _, t, _⟩ := loopConfig_inv h1
  obtain ⟨_, _, _, _, _, _, _, _, _, _, _, _, _, _, _, _, _, _, _, t', _⟩ := loopConfig_inv h1'
  exact Except.ok.inj (t.symm.trans ((configTruth_congr zero hff).trans t'))

/-- **C108 (finding)** for `iter_islands.py`: the domain, the sizes, `q_star` and the perturbation parameters decide, nothing else. -/
theorem C108_iter_inputs (W' : World) {params params' : PyDict (ArgVal ℝ)} (hp : (params.map (·.1)).Nodup) (hp' : (params'.map (·.1)).Nodup)
    (h : ∀ k ∈ ["device", "eps", "kappa", "delta", "n_r", "n_theta", "n_zeta", "p_r", "p_theta", "p_zeta"] ++ fieldKeys,
      params.get? k.toList = params'.get? k.toList) {f f' : RunFile} (hf : iterMain lib W P zero params = .ok f) (hf' : iterMain lib W' P zero params' = .ok f') :
    f.Bfinal = f'.Bfinal ∧ f.harmonicNorm = f'.harmonicNorm ∧ (params.get? "force_free".toList = params'.get? "force_free".toList → f.pfinal = f'.pfinal) := by
  obtain ⟨c, D, hc, hD, -, hf⟩ := iterMain_ok lib W P zero hf
  obtain ⟨c', D', hc', hD', -, hf'⟩ := iterMain_ok lib W' P zero hf'
  rw [C106_iter_inputs P zero hp hp' fun k hk => h k (List.mem_append_left _ hk), hD'] at hD
  obtain rfl := Except.ok.inj hD
  rcases update_agree P zero (config := iterConfig) hp hp' (h "device" (by decide)) with ⟨c0, c0', h2, h2', h3⟩ | ⟨e, h2, h2'⟩
  · rw [h2] at hc
    rw [h2'] at hc'
    cases hc
    cases hc'
    have hk : ∀ k ∈ fieldKeys, c.get? k.toList = c'.get? k.toList := fun k hk => h3 _ (h k (List.mem_append_right _ hk))
    have hB : iterField c D' = iterField c' D' := by
      unfold iterField
      rw [configNum_congr (hk "q_star" (by decide)), configNum_congr (hk "kappa" (by decide))]
    obtain ⟨a1, a2, a3⟩ := projected_inputs lib W zero W' hk hB hf hf'
    exact ⟨a1, a2, fun hh => a3 (h3 _ hh)⟩
  · rw [h2] at hc; cases hc

/-- **C108 (finding)** for `stell.py` likewise. -/
theorem C108_stell_inputs (W' : World) {params params' : PyDict (ArgVal ℝ)} (hp : (params.map (·.1)).Nodup) (hp' : (params'.map (·.1)).Nodup)
    (h : ∀ k ∈ ["device", "eps", "kappa", "n_fp", "n_r", "n_theta", "n_zeta", "p_r", "p_theta", "p_zeta"] ++ fieldKeys,
      params.get? k.toList = params'.get? k.toList) {f f' : RunFile} (hf : stellMain lib W P zero params = .ok f) (hf' : stellMain lib W' P zero params' = .ok f') :
    f.Bfinal = f'.Bfinal ∧ f.harmonicNorm = f'.harmonicNorm ∧ (params.get? "force_free".toList = params'.get? "force_free".toList → f.pfinal = f'.pfinal) := by
  obtain ⟨c, D, hc, hD, -, hf⟩ := stellMain_ok lib W P zero hf
  obtain ⟨c', D', hc', hD', -, hf'⟩ := stellMain_ok lib W' P zero hf'
  rw [C106_stell_inputs P zero hp hp' fun k hk => h k (List.mem_append_left _ hk), hD'] at hD
  obtain rfl := Except.ok.inj hD
  rcases update_agree P zero (config := stellConfig) hp hp' (h "device" (by decide)) with ⟨c0, c0', h2, h2', h3⟩ | ⟨e, h2, h2'⟩
  · rw [h2] at hc
    rw [h2'] at hc'
    cases hc
    cases hc'
    have hk : ∀ k ∈ fieldKeys, c.get? k.toList = c'.get? k.toList := fun k hk => h3 _ (h k (List.mem_append_right _ hk))
    have hB : stellField c D' = stellField c' D' := by
      unfold stellField
      rw [configNum_congr (hk "q_star" (by decide))]
    obtain ⟨a1, a2, a3⟩ := projected_inputs lib W zero W' hk hB hf hf'
    exact ⟨a1, a2, fun hh => a3 (h3 _ hh)⟩
  · rw [h2] at hc; cases hc

/-! ## Names, saved fields -/

/-- One of the three scripts wrote the file `f` with configuration `c`; `dir` is the name of its directory, `ext` the extension. -/
def Wrote (params : PyDict (ArgVal ℝ)) (dir ext : String) (c : PyDict (ArgVal ℝ)) (f : RunFile) : Prop :=
  (∃ a, dir = "solovev" ∧ ext = ".h5" ∧ solovevConfig P zero a params = .ok c ∧ solovevMain lib W P zero a params = .ok f) ∨
  (dir = "iter" ∧ ext = ".h5" ∧ updateConfig P zero (devicePresets realLits) params iterConfig = .ok c ∧ iterMain lib W P zero params = .ok f) ∨
  (dir = "stell" ∧ ext = ".h5.h5" ∧ updateConfig P zero (devicePresets realLits) params stellConfig = .ok c ∧ stellMain lib W P zero params = .ok f)

theorem wrote_inv {params c : PyDict (ArgVal ℝ)} {dir ext : String} {f : RunFile} (h : Wrote lib W P zero params dir ext c f) :
    ∃ suffix D start dB, (solovevBuild c = .ok D ∨ iterBuild c = .ok D ∨ stellBuild c = .ok D) ∧ finishWith lib W zero dir suffix c D start dB = .ok f ∧ suffix ++ ".h5" = ext := by
  rcases h with ⟨a, rfl, rfl, hc, hf⟩ | ⟨rfl, rfl, hc, hf⟩ | ⟨rfl, rfl, hc, hf⟩
  · obtain ⟨c', D, hc', hD, hb, hf⟩ := solovevMain_ok lib W P zero hf
    rw [hc] at hc'
    obtain rfl := Except.ok.inj hc'
    exact ⟨_, _, _, _, .inl hb, hf, rfl⟩
  · obtain ⟨c', D, hc', hD, hb, hf⟩ := iterMain_ok lib W P zero hf
    rw [hc] at hc'
    obtain rfl := Except.ok.inj hc'
    obtain ⟨B0, dB, -, -, hf⟩ := finishProjected_ok lib W zero hf
    exact ⟨_, _, _, _, .inr (.inl hb), hf, rfl⟩
  · obtain ⟨c', D, hc', hD, hb, hf⟩ := stellMain_ok lib W P zero hf
    rw [hc] at hc'
    obtain rfl := Except.ok.inj hc'
    obtain ⟨B0, dB, -, -, hf⟩ := finishProjected_ok lib W zero hf
    exact ⟨_, _, _, _, .inr (.inr hb), hf, rfl⟩

theorem uniqueId_chars (rnd : Nat → Fin idChars.length) : (uniqueId rnd 8).length = 8 ∧ ∀ x ∈ uniqueId rnd 8, x ∈ idChars := by
  unfold uniqueId
  constructor
  · rw [List.length_map, List.length_range]
    rfl
  · intro x hx
    obtain ⟨i, -, rfl⟩ := List.mem_map.mp hx
    exact List.getElem_mem _

/-- **C108** a script that writes a file had a string for its run name (or none), and writes `script_outputs/<script>/<name>/<name>.h5`, where the name is the one given or eight random
letters and digits; the attributes stored with it are the configuration. `stell.py` writes `<name>.h5.h5` (finding). -/
theorem C108_name {params c : PyDict (ArgVal ℝ)} {dir ext : String} {f : RunFile} (h : Wrote lib W P zero params dir ext c f) :
    ∃ given name : PyStr, c.get? "run_name".toList = some (.str given) ∧ (given ≠ [] → name = given) ∧ (given = [] → name.length = 8 ∧ ∀ x ∈ name, x ∈ idChars) ∧
      f.name = "script_outputs/".toList ++ dir.toList ++ "/".toList ++ name ++ "/".toList ++ name ++ ext.toList ∧ f.config = c := by
  obtain ⟨suffix, D, start, dB, -, hf, rfl⟩ := wrote_inv lib W P zero h
  obtain ⟨name, cfg, ff, dt, eta, gamma, B, hn, h1, -, hB, -, -, rfl⟩ := (finishWith_ok lib W zero _ _ c _ _ _ f).mp hf
  unfold runName at hn
  split at hn
  · cases hn
  · rename_i s hs
    obtain rfl := Except.ok.inj hn
    refine ⟨s, if s = [] then uniqueId W.rnd 8 else s, hs, fun e => if_neg e, fun e => ?_, ?_, rfl⟩
    · rw [if_pos e]
      exact uniqueId_chars W.rnd
    · generalize (if s = [] then uniqueId W.rnd 8 else s) = nm
      unfold fileOf outDir
      dsimp only
      rw [String.toList_append]
      simp only [List.append_assoc]
  · cases hn

/-- **C108 (finding)** a run name that `parse_args` turns into a number or a boolean (such as `run_name=42`) never leads to a file. -/
theorem C108_numeric_name {params c : PyDict (ArgVal ℝ)} {dir ext : String} {f : RunFile} (v : ArgVal ℝ) (hv : ∀ s, v ≠ .str s) (hc : c.get? "run_name".toList = some v) :
    ¬ Wrote lib W P zero params dir ext c f := by
  intro h
  obtain ⟨given, name, h1, -⟩ := C108_name lib W P zero h
  rw [hc] at h1
  exact hv _ (Option.some.inj h1)

/-- **C108 (finding)** with saved fields, `B_final` is the first of them and `p_final` its pressure; there is one saved field and one pressure for every entry of `iterations`, and there are
at least two. Fields are saved exactly if `save_B` is set. -/
theorem C108_saved_fields {params c : PyDict (ArgVal ℝ)} {dir ext : String} {f : RunFile} (h : Wrote lib W P zero params dir ext c f) :
    configTruth zero c "save_B" = .ok f.fields.isSome ∧
    ∃ its, f.traces.get? "iterations".toList = some its ∧ 2 ≤ its.length ∧ its.head? = some (.fin 0) ∧
      ∀ Bs ps, f.fields = some (Bs, ps) → Bs.head? = some f.Bfinal ∧ ps.head? = some f.pfinal ∧ Bs.length = its.length ∧ ps.length = its.length := by
  obtain ⟨suffix, D, start, dB, -, hf, rfl⟩ := wrote_inv lib W P zero h
  obtain ⟨name, cfg, ff, dt, eta, gamma, B, hn, h1, -, hB, -, ⟨x, hx⟩, rfl⟩ := (finishWith_ok lib W zero _ _ c _ _ _ f).mp hf
  obtain ⟨_, _, _, _, _, _, _, _, _, _, _, _, _, _, _, _, _, _, _, _, t⟩ := loopConfig_inv h1
  obtain ⟨t1, -, -, -, -, -, -, -, -, -, t2⟩ := C50_trace cfg ((stepperOf lib D gamma cfg ff).env cfg.pertStrength (dB.getD fun _ => 0) W.clock) W.startTime
    ((stepperOf lib D gamma cfg ff).initState B dt eta) (emptyTrace _) cfg.maxit
  dsimp only at t1 t2
  generalize hS : savedIterations cfg ((stepperOf lib D gamma cfg ff).env cfg.pertStrength (dB.getD fun _ => 0) W.clock) W.startTime
    ((stepperOf lib D gamma cfg ff).initState B dt eta) (emptyTrace _) cfg.maxit = L at t1 t2
  have hL : L ≠ [] := by
    rintro rfl
    rw [t1] at hx
    simp [averageStepTime, emptyTrace] at hx
  refine ⟨?_, _, rfl, ?_, ?_, fun Bs ps hBs => ?_⟩
  · rw [t]
    unfold fileOf
    cases cfg.saveB <;> rfl
  · rw [t1]
    obtain ⟨y, l, rfl⟩ := List.exists_cons_of_ne_nil hL
    simp [emptyTrace]
  · rw [t1]
    simp [emptyTrace]
  · unfold fileOf at hBs
    dsimp only at hBs
    rcases hs : cfg.saveB with _ | _
    · rw [hs] at hBs; cases hBs
    · rw [hs, if_pos rfl] at hBs
      rw [hs, if_pos rfl] at t2
      obtain ⟨rfl, rfl⟩ := Prod.mk.inj (Option.some.inj hBs)
      rw [t2, t1]
      refine ⟨rfl, rfl, ?_, ?_⟩ <;> simp [emptyTrace]

/-- **C108** what is recorded: there is an increasing list `L`, of the iterations among `1..maxit` that are due and have an accepted step, such that the datasets hold the values of iteration 0 and of those in `L`, for the run from the
initial field with the time stepper and the numbers of the configuration; the saved fields are the fields of those iterations, with their pressures; the three times are the total time, the time
of the setup and the time of the solve. -/
theorem C108_recorded {params c : PyDict (ArgVal ℝ)} {dir ext : String} {f : RunFile} (h : Wrote lib W P zero params dir ext c f) :
    ∃ (D : DeRham) (cfg : RelaxConfig) (ff : Bool) (dt eta : ℝ) (gamma : Nat) (B : Fin D.m2 → ℝ) (dB : V3 → V3) (L : List Nat),
      (solovevBuild c = .ok D ∨ iterBuild c = .ok D ∨ stellBuild c = .ok D) ∧ loopConfig zero c = .ok (cfg, ff) ∧ stateNums c = .ok (dt, eta, gamma) ∧ f.Bfinal = List.ofFn B ∧
      (0 :: L).Pairwise (· < ·) ∧
      let T : Stepper := ⟨D, lib.pinv D.dd3, lib.lstsq, gamma, cfg.precond, ff⟩
      (∀ i, i ∈ L ↔ 1 ≤ i ∧ i ≤ cfg.maxit ∧ (i % cfg.saveEvery = 0 ∨ i = cfg.maxit) ∧
        Accepted cfg (T.env cfg.pertStrength dB W.clock) W.startTime (T.initState B dt eta) (emptyTrace _) i) ∧
      let s := fun i => (relaxAfter cfg (T.env cfg.pertStrength dB W.clock) W.startTime (T.initState B dt eta) (emptyTrace _) i).state
      f.traces.get? "iterations".toList = some ((0 :: L).map fun i => .fin (i : ℝ)) ∧
      f.traces.get? "energy_trace".toList = some ((0 :: L).map fun i => .fin (D.energy (s i).Bn)) ∧
      f.traces.get? "helicity_trace".toList = some ((0 :: L).map fun i => .fin (D.helicity (s i).Bn)) ∧
      f.traces.get? "divergence_trace".toList = some ((0 :: L).map fun i => .fin (D.divergenceNorm (s i).Bn)) ∧
      f.traces.get? "timesteps".toList = some ((0 :: L).map fun i => .fin (s i).dt) ∧
      f.traces.get? "wall_time_trace".toList = some ((0 :: L).map fun i => .fin (W.clock i - W.startTime)) ∧
      (∃ x, f.traces.get? "force_trace".toList = some (x :: L.map fun i => (s i).forceNorm)) ∧
      (∃ x, f.traces.get? "velocity_trace".toList = some (x :: L.map fun i => (s i).velocityNorm)) ∧
      f.traces.get? "picard_iterations".toList = some (.fin 0 :: L.map fun i => .fin ((s i).picardIterations : ℝ)) ∧
      f.traces.get? "picard_errors".toList = some (.fin 0 :: L.map fun i => (s i).picardResiduum) ∧
      (∀ Bs ps, f.fields = some (Bs, ps) → Bs = (0 :: L).map (fun i => List.ofFn (s i).Bn) ∧
        ps = (0 :: L).map fun i => if ff then (D.pressureForceFree (s i).Bn).map List.ofFn else some (List.ofFn (D.pressure (s i).Bn))) ∧
      f.times = (W.endTime - W.startTime, W.setupDone - W.startTime, W.endTime - W.setupDone) := by
  obtain ⟨suffix, D, start, dB, hb, hf, rfl⟩ := wrote_inv lib W P zero h
  obtain ⟨name, cfg, ff, dt, eta, gamma, B, hn, h1, h2, hB, -, ⟨x, hx⟩, rfl⟩ := (finishWith_ok lib W zero _ _ c _ _ _ f).mp hf
  obtain ⟨t1, t2, t3, t4, t5, t6, t7, t8, t9, t10, t11⟩ := C50_trace cfg ((stepperOf lib D gamma cfg ff).env cfg.pertStrength (dB.getD fun _ => 0) W.clock) W.startTime
    ((stepperOf lib D gamma cfg ff).initState B dt eta) (emptyTrace _) cfg.maxit
  obtain ⟨s1, -, s2⟩ := C50_schedule cfg ((stepperOf lib D gamma cfg ff).env cfg.pertStrength (dB.getD fun _ => 0) W.clock) W.startTime
    ((stepperOf lib D gamma cfg ff).initState B dt eta) (emptyTrace _) rfl cfg.maxit
  rw [t1] at s1 s2
  refine ⟨D, cfg, ff, dt, eta, gamma, B, dB.getD fun _ => 0, savedIterations cfg ((stepperOf lib D gamma cfg ff).env cfg.pertStrength (dB.getD fun _ => 0) W.clock) W.startTime
    ((stepperOf lib D gamma cfg ff).initState B dt eta) (emptyTrace _) cfg.maxit, hb, h1, h2, rfl, s1, ?_⟩
  intro T
  constructor
  · intro i
    have hi := s2 i
    constructor
    · intro hm
      rcases hi.mp (List.mem_append_right _ (List.mem_cons_of_mem _ hm)) with rfl | hi
      · exact absurd ((List.pairwise_cons.mp s1).1 0 hm) (lt_irrefl _)
      · exact hi
    · intro hm
      rcases List.mem_cons.mp (show i ∈ 0 :: _ from hi.mpr (.inr hm)) with rfl | hi
      · exact absurd hm.1 (by omega)
      · exact hi
  intro s
  refine ⟨congrArg some (congrArg _ t1), congrArg some t4, congrArg some t5, congrArg some t6, ?_, ?_, ⟨_, congrArg some t2⟩, ⟨_, congrArg some t3⟩, ?_,
    congrArg some t8, ?_, rfl⟩
  · refine (congrArg some (congrArg _ t9)).trans ?_
    simp [emptyTrace, s, T, stepperOf, relaxAfter, relaxInit]
  · refine (congrArg some (congrArg _ t10)).trans ?_
    simp [emptyTrace, Stepper.env]
  · refine (congrArg some (congrArg _ t7)).trans ?_
    simp [emptyTrace, s, T, stepperOf]
  · intro Bs ps hBs
    rcases hs : cfg.saveB with _ | _
    · unfold fileOf at hBs
      rw [hs] at hBs; cases hBs
    · unfold fileOf at hBs
      dsimp only at hBs
      rw [hs, if_pos rfl] at hBs
      rw [hs, if_pos rfl] at t11
      obtain ⟨rfl, rfl⟩ := Prod.mk.inj (Option.some.inj hBs)
      rw [t11]
      constructor
      · show List.map _ (_ :: List.map _ _) = _
        rw [List.map_cons, List.map_map]
        rfl
      · show List.map _ (_ :: List.map _ _) = _
        rw [List.map_cons, List.map_map]
        rfl

/-! ## The outcome of `solovev.py` -/

/-- No force-free pressure either. -/
theorem pressure_zero {ns ps : Nat × Nat × Nat} {q : Nat} {types : String × String × String} {F : V3 → V3} {polar dirichlet : Bool} {D : DeRham}
    (h : Admissible ns ps q types F polar dirichlet D) {B : Fin D.m2 → ℝ} (hB : D.weakCurl *ᵥ B = 0) (ff : Bool) {l : List ℝ}
    (hl : storedPressure D ff B = some l) : ∀ x ∈ l, x = 0 := by
  have hz : ∀ (m : Nat) (v : Fin m → ℝ), v = 0 → ∀ x ∈ List.ofFn v, x = 0 := by
    rintro m v rfl x hx
    obtain ⟨i, rfl⟩ := (List.mem_ofFn' _ _).mp hx
    rfl
  unfold storedPressure at hl
  cases ff
  · rw [if_neg (by simp)] at hl
    obtain rfl := Option.some.inj hl
    exact hz _ _ (C77_harmonic_diagnostics h B hB).2.2.2.2
  · rw [if_pos rfl] at hl
    unfold pressureForceFree at hl
    split_ifs at hl with hh
    · cases hl
    · obtain rfl := Option.some.inj hl
      refine hz _ _ ?_
      have e : D.lmbda B = fun _ _ => 0 := by
        funext x i
        unfold lmbda
        rw [hB]
        have : D.form1 (0 : Fin D.m1 → ℝ) x = 0 := by
          funext i
          simp [DeRham.form1, discreteFunction]
        rw [this, zero_dotProduct, zero_div, zero_mul]
      rw [e]
      have : D.projector0 (fun _ _ => 0) = 0 := by
        funext r
        unfold DeRham.projector0 DeRham.zeroformProjection
        simp [mulVec, dotProduct, integrateAgainst]
      rw [this, mulVec_zero]

theorem m2_pos {ns ps : Nat × Nat × Nat} {q : Nat} {types : String × String × String} {F : V3 → V3} {D : DeRham} (h : Admissible ns ps q types F true true D) : 0 < D.m2 := by
  have m2 := (C31_mass_matrices_definite h).2.2.1
  obtain ⟨t1, t2, t3, _⟩ := h.polar rfl
  have hd := (C73_harmonic_dimensions h ⟨t1, by rw [t2]; decide, t3⟩).2.2.1
  have hd' : (codeBetti true true ns.1 ns.2.1).2.2.1 = if ns.1 ≤ ns.2.1 then 1 else 2 := by
    simp only [codeBetti]; split_ifs <;> rfl
  rw [hd'] at hd
  have hle := Submodule.finrank_le (LinearMap.ker D.dd2.mulVecLin)
  rw [hd, Module.finrank_fin_fun] at hle
  split_ifs at hle <;> omega

/-- **C108 (finding)** with a solver tolerance in [0, 1), at least one Picard iteration and a positive force tolerance, and unless a perturbation is due at iteration 1, `solovev.py` writes a file
only if `maxit = 1`, or `maxit > 1` and `save_every = 1`. The file has the iterations 0 and 1, no force, energy 1/2, no helicity, no divergence, harmonic norm 1 and no pressure. In all other cases
the report raises `ZeroDivisionError` before anything is saved. A perturbation due at iteration 1 raises `KeyError`, since `CONFIG` has no `dB_xyz`; one due later is never applied. -/
theorem C108_solovev_outcome {a : Bool} {params c : PyDict (ArgVal ℝ)} {D : DeRham} {ns ps : Nat × Nat × Nat} {q : Nat} {types : String × String × String} {F : V3 → V3}
    (hc : solovevConfig P zero a params = .ok c) (hD : solovevRun P zero a params = .ok D) (hA : Admissible ns ps q types F true true D)
    (hE : IsEigh (symmetrize (D.M2 * D.dd2)) (lib.eigh (symmetrize (D.M2 * D.dd2))).1 (lib.eigh (symmetrize (D.M2 * D.dd2))).2)
    (hl : ∀ (n : Nat) (A : Matrix (Fin n) (Fin n) ℝ), lib.lstsq A 0 = 0)
    {name : PyStr} {cfg : RelaxConfig} {ff : Bool} {dt eta : ℝ} {gamma : Nat} (hn : runName W c = .ok name) (h1 : loopConfig zero c = .ok (cfg, ff))
    (h2 : stateNums c = .ok (dt, eta, gamma)) (ht0 : 0 ≤ cfg.solverTol) (ht1 : cfg.solverTol < 1) (hm : 0 < cfg.solverMaxit) (hf : 0 < cfg.forceTol) :
    (0 < cfg.pertStrength ∧ cfg.applyPertAfter = 1 ∧ 1 ≤ cfg.maxit → solovevMain lib W P zero a params = .error "KeyError: 'dB_xyz'") ∧
    (¬ (0 < cfg.pertStrength ∧ cfg.applyPertAfter = 1 ∧ 1 ≤ cfg.maxit) →
    ((cfg.maxit = 1 ∨ 1 < cfg.maxit ∧ cfg.saveEvery = 1) → ∃ f : RunFile, solovevMain lib W P zero a params = .ok f ∧
      f.traces.get? "iterations".toList = some [.fin 0, .fin 1] ∧ f.traces.get? "force_trace".toList = some [.fin 0, .fin 0] ∧
      f.traces.get? "energy_trace".toList = some [.fin (1 / 2), .fin (1 / 2)] ∧ f.traces.get? "helicity_trace".toList = some [.fin 0, .fin 0] ∧
      f.traces.get? "divergence_trace".toList = some [.fin 0, .fin 0] ∧ f.harmonicNorm = 1 ∧ ∀ l, f.pfinal = some l → ∀ x ∈ l, x = 0) ∧
    (¬ (cfg.maxit = 1 ∨ 1 < cfg.maxit ∧ cfg.saveEvery = 1) → solovevMain lib W P zero a params = .error "ZeroDivisionError: float division by zero")) := by
  classical
  have hpos := m2_pos hA
  have hB0 : eigenStart lib D = .ok (D.harmonicStart (lib.eigh (symmetrize (D.M2 * D.dd2))).2 ⟨0, hpos⟩) := by
    unfold eigenStart; rw [dif_pos hpos]
  obtain ⟨b1, b2, -, b3, b4, -⟩ := C77_harmonic_start hA hE ⟨0, hpos⟩ rfl
  generalize D.harmonicStart (lib.eigh (symmetrize (D.M2 * D.dd2))).2 ⟨0, hpos⟩ = B at hB0 b1 b2 b3 b4
  obtain ⟨-, d1, d2, -, -⟩ := C77_harmonic_diagnostics hA B b2
  have hbuild : solovevBuild c = .ok D := by
    unfold solovevConfig at hc
    unfold solovevRun at hD
    rcases hu : updateConfig P zero (devicePresets realLits) params (defaultConfig realLits) with e | c0
    · rw [hu] at hc; cases hc
    · rw [hu] at hc hD
      cases hc
      exact hD
  have hmain0 : solovevMain lib W P zero a params =
      if perturbationDue W (stepperOf lib D gamma cfg ff) cfg ((stepperOf lib D gamma cfg ff).initState B dt eta) then .error "KeyError: 'dB_xyz'" else
      finishRun W (stepperOf lib D gamma cfg ff) cfg (fun _ => 0) ((stepperOf lib D gamma cfg ff).initState B dt eta) (outDir "solovev" name ++ name ++ "".toList) c := by
    unfold solovevMain finishWith
    rw [hc]
    dsimp only
    rw [hbuild]
    dsimp only
    rw [hn, h1, h2]
    dsimp only
    rw [hB0]
    dsimp only
    by_cases hdue : perturbationDue W (stepperOf lib D gamma cfg ff) cfg ((stepperOf lib D gamma cfg ff).initState B dt eta)
    · rw [if_pos hdue, if_pos ⟨rfl, hdue⟩]
    · rw [if_neg hdue, if_neg (fun h => hdue h.2)]
      rfl
  have hA' : Admissible ns ps q types F true true (stepperOf lib D gamma cfg ff).D := hA
  have hl' : ∀ H, (stepperOf lib D gamma cfg ff).lstsq H 0 = 0 := fun H => hl _ H
  have hB : (stepperOf lib D gamma cfg ff).D.weakCurl *ᵥ B = 0 := b2
  have hrep := C77_harmonic_run_report hA' hl' cfg ht0 ht1 hm hf cfg.pertStrength (fun _ => 0) W.clock W.startTime hB dt eta W.endTime W.setupDone
  constructor
  · rintro ⟨p1, p2, p3⟩
    rw [hmain0, if_pos]
    refine ⟨1, le_refl _, p3, p2.symm, p1, rfl, ?_⟩
    intro hrej
    have hstop := (hrep 1).1 (le_refl _)
    rw [relaxAfter] at hstop
    unfold relaxIteration at hstop
    rw [if_neg (show ¬ (relaxAfter cfg ((stepperOf lib D gamma cfg ff).env cfg.pertStrength (fun _ => 0) W.clock) W.startTime
      ((stepperOf lib D gamma cfg ff).initState B dt eta) (emptyTrace _) 0).stopped = true from Bool.false_ne_true)] at hstop
    dsimp only at hstop
    rw [if_pos (by exact hrej)] at hstop
    exact Bool.false_ne_true hstop
  intro hdue'
  have hnodue : ¬ perturbationDue W (stepperOf lib D gamma cfg ff) cfg ((stepperOf lib D gamma cfg ff).initState B dt eta) := by
    rintro ⟨i, i1, i2, i3, i4, i5, -⟩
    rcases Nat.lt_or_ge 1 i with hi | hi
    · have := (hrep (i - 1)).1 (by omega)
      exact absurd (this.symm.trans i5) (by decide)
    · obtain rfl : i = 1 := by omega
      exact hdue' ⟨i4, i3.symm, i2⟩
  have hmain := hmain0
  rw [if_neg hnodue] at hmain
  obtain ⟨-, r2, r3, r4⟩ := hrep cfg.maxit
  have hst : 1 ≤ cfg.maxit → (relaxAfter cfg ((stepperOf lib D gamma cfg ff).env cfg.pertStrength (fun _ => 0) W.clock) W.startTime
      ((stepperOf lib D gamma cfg ff).initState B dt eta) (emptyTrace _) 1).state.Bn = B := fun hm1 =>
    (C77_stationary hA' hl' cfg cfg.pertStrength (fun _ => 0) W.clock W.startTime hB dt eta (emptyTrace _) 1 (by
      by_contra hcon
      push Not at hcon
      exact hdue' ⟨hcon.1, by have := hcon.2; omega, hm1⟩)).1
  obtain ⟨t1, t2, -, t3, t4, t5, -⟩ := C50_trace cfg ((stepperOf lib D gamma cfg ff).env cfg.pertStrength (fun _ => 0) W.clock) W.startTime
    ((stepperOf lib D gamma cfg ff).initState B dt eta) (emptyTrace _) cfg.maxit
  dsimp only at t1 t2 t3 t4 t5 r2 r3 r4
  rw [hmain, finishRun_eq]
  obtain ⟨_, _, save, _, _, _, _, _, _, _, _, _, _, _, _, _, s0, hsave, _⟩ := loopConfig_inv h1
  have hse : cfg.saveEvery ≠ 0 := by rw [hsave]; omega
  have h1m : 1 % cfg.saveEvery = 0 ↔ cfg.saveEvery = 1 := by
    rcases Nat.lt_or_ge 1 cfg.saveEvery with h | h
    · rw [Nat.mod_eq_of_lt h]; omega
    · have : cfg.saveEvery = 1 := by omega
      simp [this]
  constructor
  · intro hcase
    obtain ⟨q1, q2⟩ := r4 (by rw [h1m]; omega) (by omega)
    rw [q2]
    have hL : savedIterations cfg ((stepperOf lib D gamma cfg ff).env cfg.pertStrength (fun _ => 0) W.clock) W.startTime
        ((stepperOf lib D gamma cfg ff).initState B dt eta) (emptyTrace _) cfg.maxit = [1] := by
      rw [t1] at q1
      simpa [emptyTrace] using q1
    rw [hL] at t2 t3 t4 t5
    simp only [List.map_cons, List.map_nil, hst (by omega)] at t2 t3 t4 t5
    rw [t2] at r2
    have hdiv : D.divergenceNorm B = 0 := by
      unfold divergenceNorm
      rw [b1, zero_dotProduct, Real.sqrt_zero]
    have i1 := r2 _ (List.mem_append_right _ (List.mem_cons_self))
    have i2 := r2 _ (List.mem_append_right _ (List.mem_cons_of_mem _ List.mem_cons_self))
    refine ⟨_, rfl, ?_, ?_, ?_, ?_, ?_, ?_, fun l hl => ?_⟩
    · refine Eq.trans rfl (congrArg some (Eq.trans (congrArg _ q1) ?_))
      simp
    · refine Eq.trans rfl (congrArg some (t2.trans ?_))
      rw [i1, i2]
      rfl
    · refine Eq.trans rfl (congrArg some (t3.trans ?_))
      change [FV.fin (D.energy B), FV.fin (D.energy B)] = _
      rw [b4]
    · refine Eq.trans rfl (congrArg some (t4.trans ?_))
      change [FV.fin (D.helicity B), FV.fin (D.helicity B)] = _
      rw [d2]
    · refine Eq.trans rfl (congrArg some (t5.trans ?_))
      change [FV.fin (D.divergenceNorm B), FV.fin (D.divergenceNorm B)] = _
      rw [hdiv]
    · change D.norm2 (D.harmonicComponent B) = 1
      rw [d1, b3]
    · exact pressure_zero hA b2 ff hl
  · intro hcase
    have hk : (1 % cfg.saveEvery ≠ 0 ∧ 1 ≠ cfg.maxit) ∨ cfg.maxit = 0 := by
      rw [Ne, h1m]; omega
    rw [(r3 hk).2]

/-- The library functions do what their documentation says: `pinv` is the Moore–Penrose inverse, `eigh` of a symmetric matrix gives orthonormal eigenvectors with ascending eigenvalues, and the
solution of smallest norm for the right-hand side zero is zero. -/
structure Sound (lib : NumLib) : Prop where
  pinv : ∀ (n : Nat) (A : Matrix (Fin n) (Fin n) ℝ), IsPinv A (lib.pinv A)
  lstsq : ∀ (n : Nat) (A : Matrix (Fin n) (Fin n) ℝ), lib.lstsq A 0 = 0
  eigh : ∀ (n : Nat) (A : Matrix (Fin n) (Fin n) ℝ), Aᵀ = A → IsEigh A (lib.eigh A).1 (lib.eigh A).2

theorem symmetrize_symm {n : Nat} (A : Matrix (Fin n) (Fin n) ℝ) : (symmetrize A)ᵀ = symmetrize A := by
  unfold symmetrize
  rw [transpose_smul, transpose_add, transpose_transpose, add_comm]

/-- Such library functions exist. -/
theorem exists_sound : ∃ lib, Sound lib := by
  classical
  have h1 : ∀ (n : Nat) (A : Matrix (Fin n) (Fin n) ℝ), ∃ X, IsPinv A X := fun n A => pinv_exists A
  choose X hX using h1
  have h2 : ∀ (n : Nat) (A : Matrix (Fin n) (Fin n) ℝ), ∃ p : (Fin n → ℝ) × Matrix (Fin n) (Fin n) ℝ, Aᵀ = A → IsEigh A p.1 p.2 := by
    intro n A
    by_cases h : Aᵀ = A
    · obtain ⟨w, V, hV⟩ := exists_eigh h
      exact ⟨(w, V), fun _ => hV⟩
    · exact ⟨(0, 0), fun h' => absurd h' h⟩
  choose Y hY using h2
  exact ⟨⟨fun {n} A => X n A, fun {n} A b => X n A *ᵥ b, fun {n} A => Y n A⟩, hX, fun n A => (mulVec_zero (X n A) : X n A *ᵥ 0 = 0), hY⟩

/-- **C108 (finding)** `python solovev.py` with any sizes, `maxit` and `save_every`, the other parameters of the domain and of the loop being the default ones: a file is written exactly if
`maxit = 1`, or `maxit > 1` and `save_every = 1`; otherwise the script ends with `ZeroDivisionError`. In particular it does so without any parameters (`maxit = 5000`, `save_every = 100`). -/
theorem C108_solovev_command (hlib : Sound lib) {params : PyDict (ArgVal ℝ)} (hp : (params.map (·.1)).Nodup)
    (hno : ∀ k ∈ ["run_name", "device", "boundary_type", "eps", "kappa", "nfp", "precond", "precond_compute_every", "gamma", "dt", "dt_factor", "force_tol", "eta", "force_free",
      "solver_maxit", "solver_critit", "solver_tol", "save_B", "pert_strength", "apply_pert_after"], params.get? k.toList = none) {nr nt nz pr pt pz maxit save : Nat}
    (ha : Asks params [("n_r", 8, nr), ("n_theta", 8, nt), ("n_zeta", 6, nz), ("p_r", 3, pr), ("p_theta", 3, pt), ("p_zeta", 3, pz)]) (hs : RunSizes nr nt nz pr pt pz)
    (hl : Asks params [("maxit", 5000, maxit), ("save_every", 100, save)]) (hsave : save ≠ 0) :
    ((maxit = 1 ∨ 1 < maxit ∧ save = 1) → ∃ f : RunFile, solovevMain lib W P zero false params = .ok f ∧
      f.traces.get? "iterations".toList = some [.fin 0, .fin 1] ∧ f.traces.get? "force_trace".toList = some [.fin 0, .fin 0] ∧
      f.traces.get? "energy_trace".toList = some [.fin (1 / 2), .fin (1 / 2)] ∧ f.traces.get? "helicity_trace".toList = some [.fin 0, .fin 0] ∧
      f.traces.get? "divergence_trace".toList = some [.fin 0, .fin 0] ∧ f.harmonicNorm = 1 ∧ ∀ l, f.pfinal = some l → ∀ x ∈ l, x = 0) ∧
    (¬ (maxit = 1 ∨ 1 < maxit ∧ save = 1) → solovevMain lib W P zero false params = .error "ZeroDivisionError: float division by zero") := by
  obtain ⟨F, D, -, hD, hR⟩ := C106_solovev_default P zero hp (fun k hk => hno k (by revert hk k; decide)) ha hs
  obtain ⟨c, hc, hv⟩ := final_config P zero (config := defaultConfig realLits) hp (.inl (hno "device" (by decide)))
  rw [selected_none P (hno "device" (by decide))] at hv
  have v : ∀ (k : String) (v : ArgVal ℝ), (defaultConfig realLits).get? k.toList = some v → params.get? k.toList = none → c.get? k.toList = some v := fun k v h1 h2 => by
    rw [hv k v h1, h2]; rfl
  have w : ∀ (k : String) (d n : Nat), (defaultConfig realLits).get? k.toList = some (.int d) → (params.get? k.toList).getD (.int (d : Int)) = .int (n : Int) →
      c.get? k.toList = some (.int (n : Int)) := fun k d n h1 h2 => by rw [hv k _ h1, h2]
  have hc' : solovevConfig P zero false params = .ok c := by unfold solovevConfig; rw [hc]; rfl
  have num : ∀ (k : String) (x : ℝ), (defaultConfig realLits).get? k.toList = some (.float x) → params.get? k.toList = none → configNum c k = .ok x := fun k x h1 h2 => by
    unfold configNum; rw [v k _ h1 h2]; rfl
  have int : ∀ (k : String) (x : Int), (defaultConfig realLits).get? k.toList = some (.int x) → params.get? k.toList = none → configInt c k = .ok x := fun k x h1 h2 => by
    unfold configInt; rw [v k _ h1 h2]; rfl
  have tr : ∀ (k : String) (x : Bool), (defaultConfig realLits).get? k.toList = some (.bool x) → params.get? k.toList = none → configTruth zero c k = .ok x := fun k x h1 h2 => by
    unfold configTruth; rw [v k _ h1 h2]; rfl
  have int' : ∀ (k : String) (d n : Nat), (defaultConfig realLits).get? k.toList = some (.int d) → (params.get? k.toList).getD (.int (d : Int)) = .int (n : Int) →
      configInt c k = .ok (n : Int) := fun k d n h1 h2 => by unfold configInt; rw [w k d n h1 h2]; rfl
  have hn : runName W c = .ok (uniqueId W.rnd 8) := by
    unfold runName
    rw [v "run_name" _ rfl (hno "run_name" (by decide))]
    rfl
  have e1 : loopNums c = .ok (realLits.lit 1 12, realLits.lit 101 2, realLits.lit 1 15, realLits.lit 0 1) := by
    unfold loopNums
    rw [num "solver_tol" _ rfl (hno _ (by decide)), num "dt_factor" _ rfl (hno _ (by decide)), num "force_tol" _ rfl (hno _ (by decide)),
      num "pert_strength" _ rfl (hno _ (by decide))]
  have e2 : loopInts c = .ok ((maxit : Int), 20, 4, 2000) := by
    unfold loopInts
    rw [int' "maxit" 5000 maxit rfl (hl ("maxit", 5000, maxit) (by simp)), int "solver_maxit" _ rfl (hno _ (by decide)), int "solver_critit" _ rfl (hno _ (by decide)),
      int "apply_pert_after" _ rfl (hno _ (by decide))]
  have e3 : loopDivisors c = .ok (1000, save) := by
    unfold loopDivisors
    rw [int "precond_compute_every" _ rfl (hno _ (by decide)), int' "save_every" 100 save rfl (hl ("save_every", 100, save) (by simp))]
    have : (save : Int) ≠ 0 := by omega
    unfold divisorOf
    dsimp only
    rw [if_neg (by omega), if_neg this]
    rfl
  have e4 : loopFlags zero c = .ok (false, false, false) := by
    unfold loopFlags
    rw [tr "precond" _ rfl (hno _ (by decide)), tr "force_free" _ rfl (hno _ (by decide)), tr "save_B" _ rfl (hno _ (by decide))]
  have h1 : loopConfig zero c = .ok (⟨maxit, realLits.lit 1 12, 20, 4, realLits.lit 101 2, realLits.lit 1 15, false, 1000, realLits.lit 0 1, 2000, save, false⟩, false) := by
    unfold loopConfig
    rw [e1, e2, e3, e4]
    rfl
  have h2 : stateNums c = .ok (realLits.lit 1 6, realLits.lit 0 1, 0) := by
    unfold stateNums
    rw [num "dt" _ rfl (hno _ (by decide)), num "eta" _ rfl (hno _ (by decide)), int "gamma" _ rfl (hno _ (by decide))]
    rfl
  exact (C108_solovev_outcome lib W P zero hc' hD hR (hlib.eigh _ _ (symmetrize_symm _)) hlib.lstsq hn h1 h2 (by norm_num [realLits])
    (by norm_num [realLits]) (by norm_num) (by norm_num [realLits])).2 (fun h => by norm_num [realLits] at h)

/-- **C108 (finding)** the defaults. -/
theorem C108_solovev_no_parameters (hlib : Sound lib) : solovevMain lib W P zero false [] = .error "ZeroDivisionError: float division by zero" :=
  (C108_solovev_command lib W P zero hlib (params := []) (by simp) (fun k _ => rfl) (nr := 8) (nt := 8) (nz := 6) (pr := 3) (pt := 3) (pz := 3) (maxit := 5000) (save := 100)
    (fun x hx => by simp only [List.mem_cons, List.not_mem_nil, or_false] at hx; rcases hx with rfl | rfl | rfl | rfl | rfl | rfl <;> rfl)
    ⟨by norm_num, by norm_num, by norm_num⟩
    (fun x hx => by simp only [List.mem_cons, List.not_mem_nil, or_false] at hx; rcases hx with rfl | rfl <;> rfl) (by norm_num)).2 (by norm_num)

/-- Case of `C108_solovev_command`: `solovev.py maxit=1`; the file exists, so that the hypotheses of the claims about files can be met. -/
theorem wrote_case (hlib : Sound lib) : ∃ f : RunFile, solovevMain lib W P zero false [("maxit".toList, .int 1)] = .ok f := by
  obtain ⟨f, hf, -⟩ := (C108_solovev_command lib W P zero hlib (params := [("maxit".toList, .int 1)]) (by simp)
    (fun k hk => by
      revert hk k
      decide) (nr := 8) (nt := 8) (nz := 6) (pr := 3) (pt := 3) (pz := 3) (maxit := 1) (save := 100)
    (fun x hx => by simp only [List.mem_cons, List.not_mem_nil, or_false] at hx; rcases hx with rfl | rfl | rfl | rfl | rfl | rfl <;> rfl)
    ⟨by norm_num, by norm_num, by norm_num⟩
    (fun x hx => by simp only [List.mem_cons, List.not_mem_nil, or_false] at hx; rcases hx with rfl | rfl <;> rfl) (by norm_num)).1 (by norm_num)
  exact ⟨f, hf⟩

/-- The file of `iter_islands.py` or `stell.py`, on an admissible sequence. -/
theorem projected_file (hlib : Sound lib) {script suffix : String} {c : PyDict (ArgVal ℝ)} {D : DeRham} {ns ps : Nat × Nat × Nat} {q : Nat} {types : String × String × String}
    {F : V3 → V3} (hA : Admissible ns ps q types F true true D) {B : Except String (V3 → V3)} {f : RunFile} (hf : finishProjected lib W zero script suffix c D B = .ok f) :
    (∃ v : Fin D.m2 → ℝ, f.Bfinal = List.ofFn v ∧ D.strongDiv *ᵥ v = 0) ∧
    (∃ l, f.traces.get? "divergence_trace".toList = some l ∧ ∀ x ∈ l, x = .fin 0) ∧
    (∀ Bs ps, f.fields = some (Bs, ps) → ∀ b ∈ Bs, ∃ v : Fin D.m2 → ℝ, b = List.ofFn v ∧ D.strongDiv *ᵥ v = 0) := by
  obtain ⟨B0, dB, hB0, hdB, hf⟩ := finishProjected_ok lib W zero hf
  obtain ⟨name, cfg, ff, dt, eta, gamma, B, -, h1, -, hB, -, -, rfl⟩ := (finishWith_ok lib W zero _ _ c _ _ _ f).mp hf
  obtain rfl := Except.ok.inj hB
  have hX : IsPinv (stepperOf lib D gamma cfg ff).D.dd3 (stepperOf lib D gamma cfg ff).pinv := hlib.pinv _ _
  have hA' : Admissible ns ps q types F true true (stepperOf lib D gamma cfg ff).D := hA
  have hrun := fun k => C77_projected_run hA' hX cfg B0 dB dt eta W.clock W.startTime k
  have h0 := (C77_projected_start hA (hlib.pinv _ D.dd3) cfg.applyPertAfter cfg.pertStrength B0 dB).1
  obtain ⟨-, -, -, -, -, -, -, -, -, -, t2⟩ := C50_trace cfg ((stepperOf lib D gamma cfg ff).env cfg.pertStrength dB W.clock) W.startTime
    ((stepperOf lib D gamma cfg ff).initState (D.projectedStart (lib.pinv D.dd3) cfg.applyPertAfter cfg.pertStrength B0 dB) dt eta) (emptyTrace _) cfg.maxit
  dsimp only at t2 hrun
  refine ⟨⟨_, rfl, h0⟩, ⟨_, rfl, (hrun cfg.maxit).2⟩, fun Bs ps hBs b hb => ?_⟩
  unfold fileOf at hBs
  dsimp only at hBs
  rcases hs : cfg.saveB with _ | _
  · rw [hs] at hBs; cases hBs
  · rw [hs, if_pos rfl] at hBs
    rw [hs, if_pos rfl] at t2
    obtain ⟨rfl, rfl⟩ := Prod.mk.inj (Option.some.inj hBs)
    obtain ⟨v, hv, rfl⟩ := List.mem_map.mp hb
    refine ⟨v, rfl, ?_⟩
    have hv' := t2 ▸ hv
    rcases List.mem_cons.mp (show v ∈ _ :: _ from hv') with rfl | hv'
    · exact h0
    · obtain ⟨i, -, rfl⟩ := List.mem_map.mp hv'
      exact (hrun i).1

/-- **C108** every field in the file of an `iter_islands.py` run on an admissible sequence (see C106) is divergence-free, and so are the recorded divergences. -/
theorem C108_iter_divergence_free (hlib : Sound lib) {params : PyDict (ArgVal ℝ)} {D : DeRham} (hD : iterRun P zero params = .ok D) {ns ps : Nat × Nat × Nat} {q : Nat}
    {types : String × String × String} {F : V3 → V3} (hA : Admissible ns ps q types F true true D) {f : RunFile} (hf : iterMain lib W P zero params = .ok f) :
    (∃ v : Fin D.m2 → ℝ, f.Bfinal = List.ofFn v ∧ D.strongDiv *ᵥ v = 0) ∧
    (∃ l, f.traces.get? "divergence_trace".toList = some l ∧ ∀ x ∈ l, x = .fin 0) ∧
    (∀ Bs ps, f.fields = some (Bs, ps) → ∀ b ∈ Bs, ∃ v : Fin D.m2 → ℝ, b = List.ofFn v ∧ D.strongDiv *ᵥ v = 0) := by
  obtain ⟨c, D', hc, hD', -, hf⟩ := iterMain_ok lib W P zero hf
  rw [hD] at hD'
  obtain rfl := Except.ok.inj hD'
  exact projected_file lib W zero hlib hA hf

/-- **C108** and in the file of a `stell.py` run. -/
theorem C108_stell_divergence_free (hlib : Sound lib) {params : PyDict (ArgVal ℝ)} {D : DeRham} (hD : stellRun P zero params = .ok D) {ns ps : Nat × Nat × Nat} {q : Nat}
    {types : String × String × String} {F : V3 → V3} (hA : Admissible ns ps q types F true true D) {f : RunFile} (hf : stellMain lib W P zero params = .ok f) :
    (∃ v : Fin D.m2 → ℝ, f.Bfinal = List.ofFn v ∧ D.strongDiv *ᵥ v = 0) ∧
    (∃ l, f.traces.get? "divergence_trace".toList = some l ∧ ∀ x ∈ l, x = .fin 0) ∧
    (∀ Bs ps, f.fields = some (Bs, ps) → ∀ b ∈ Bs, ∃ v : Fin D.m2 → ℝ, b = List.ofFn v ∧ D.strongDiv *ᵥ v = 0) := by
  obtain ⟨c, D', hc, hD', -, hf⟩ := stellMain_ok lib W P zero hf
  rw [hD] at hD'
  obtain rfl := Except.ok.inj hD'
  exact projected_file lib W zero hlib hA hf

/-- When `iter_islands.py` or `stell.py` gets as far as a file. -/
theorem projected_outcome (script suffix : String) {c : PyDict (ArgVal ℝ)} {D : DeRham} (B0 : V3 → V3) {dB : V3 → V3} (hdB : pertOf c D = .ok dB) {name : PyStr} {cfg : RelaxConfig} {ff : Bool}
    {dt eta : ℝ} {gamma : Nat} (hn : runName W c = .ok name) (h1 : loopConfig zero c = .ok (cfg, ff)) (h2 : stateNums c = .ok (dt, eta, gamma)) :
    ((∃ f, finishProjected lib W zero script suffix c D (.ok B0) = .ok f) ↔ ∃ i, 1 ≤ i ∧ i ≤ cfg.maxit ∧ (i % cfg.saveEvery = 0 ∨ i = cfg.maxit) ∧
      Accepted cfg ((stepperOf lib D gamma cfg ff).env cfg.pertStrength dB W.clock) W.startTime
        ((stepperOf lib D gamma cfg ff).initState (D.projectedStart (lib.pinv D.dd3) cfg.applyPertAfter cfg.pertStrength B0 dB) dt eta) (emptyTrace _) i) ∧
    ((∃ f, finishProjected lib W zero script suffix c D (.ok B0) = .ok f) ∨ finishProjected lib W zero script suffix c D (.ok B0) = .error "ZeroDivisionError: float division by zero") := by
  classical
  have e : finishProjected lib W zero script suffix c D (.ok B0) = finishRun W (stepperOf lib D gamma cfg ff) cfg dB
      ((stepperOf lib D gamma cfg ff).initState (D.projectedStart (lib.pinv D.dd3) cfg.applyPertAfter cfg.pertStrength B0 dB) dt eta)
      (outDir script name ++ name ++ suffix.toList) c := by
    unfold finishProjected finishWith
    rw [hdB]
    dsimp only
    rw [hn, h1, h2]
    dsimp only
    rw [if_neg (fun h => by cases h.1)]
    rfl
  rw [e, finishRun_eq]
  obtain ⟨r1, r2⟩ := C77_report_raises_iff cfg ((stepperOf lib D gamma cfg ff).env cfg.pertStrength dB W.clock) W.startTime
    ((stepperOf lib D gamma cfg ff).initState (D.projectedStart (lib.pinv D.dd3) cfg.applyPertAfter cfg.pertStrength B0 dB) dt eta) W.endTime W.setupDone cfg.maxit
  obtain ⟨t1, -⟩ := C50_trace cfg ((stepperOf lib D gamma cfg ff).env cfg.pertStrength dB W.clock) W.startTime
    ((stepperOf lib D gamma cfg ff).initState (D.projectedStart (lib.pinv D.dd3) cfg.applyPertAfter cfg.pertStrength B0 dB) dt eta) (emptyTrace _) cfg.maxit
  rcases hx : averageStepTime W.endTime W.setupDone (relaxAfter cfg ((stepperOf lib D gamma cfg ff).env cfg.pertStrength dB W.clock) W.startTime
    ((stepperOf lib D gamma cfg ff).initState (D.projectedStart (lib.pinv D.dd3) cfg.applyPertAfter cfg.pertStrength B0 dB) dt eta) (emptyTrace _) cfg.maxit).trace.iterations with m | x
  · constructor
    · constructor
      · rintro ⟨f, hf⟩; cases hf
      · rintro ⟨i, i1, i2, i3, i4⟩
        exact absurd i4 (r1.mp ⟨m, hx⟩ i i1 i2 i3)
    · refine .inr ?_
      dsimp only
      rw [t1] at hx
      unfold averageStepTime at hx
      split at hx
      · rename_i h
        simp [emptyTrace] at h
      · rw [← Except.error.inj hx]
      · cases hx
  · constructor
    · refine ⟨fun _ => ?_, fun _ => ⟨_, rfl⟩⟩
      obtain ⟨i, i1, i2, i3, i4, -⟩ := r2 x hx
      exact ⟨i, i1, i2, i3, i4⟩
    · exact .inl ⟨_, rfl⟩

/-- **C108** once its configuration, sequence and fields exist, `iter_islands.py` writes a file exactly if some iteration that is due for saving (a multiple of `save_every`, or the last)
has an accepted step; otherwise the report raises `ZeroDivisionError`. -/
theorem C108_iter_outcome {params c : PyDict (ArgVal ℝ)} {D : DeRham} {B0 dB : V3 → V3} (hc : updateConfig P zero (devicePresets realLits) params iterConfig = .ok c)
    (hD : iterRun P zero params = .ok D) (hB : iterField c D = .ok B0) (hdB : pertOf c D = .ok dB) {name : PyStr} {cfg : RelaxConfig} {ff : Bool} {dt eta : ℝ} {gamma : Nat}
    (hn : runName W c = .ok name) (h1 : loopConfig zero c = .ok (cfg, ff)) (h2 : stateNums c = .ok (dt, eta, gamma)) :
    let T : Stepper := ⟨D, lib.pinv D.dd3, lib.lstsq, gamma, cfg.precond, ff⟩
    ((∃ f, iterMain lib W P zero params = .ok f) ↔ ∃ i, 1 ≤ i ∧ i ≤ cfg.maxit ∧ (i % cfg.saveEvery = 0 ∨ i = cfg.maxit) ∧
      Accepted cfg (T.env cfg.pertStrength dB W.clock) W.startTime
        (T.initState (D.projectedStart (lib.pinv D.dd3) cfg.applyPertAfter cfg.pertStrength B0 dB) dt eta) (emptyTrace _) i) ∧
    ((∃ f, iterMain lib W P zero params = .ok f) ∨ iterMain lib W P zero params = .error "ZeroDivisionError: float division by zero") := by
  intro T
  have e : iterMain lib W P zero params = finishProjected lib W zero "iter" "" c D (.ok B0) := by
    unfold iterMain
    rw [hc]
    dsimp only
    have : iterBuild c = .ok D := by
      unfold iterRun at hD
      rw [hc] at hD
      exact hD
    rw [this]
    dsimp only
    rw [hB]
  rw [e]
  exact projected_outcome lib W zero _ _ B0 hdB hn h1 h2

/-- **C108** the same for `stell.py`. -/
theorem C108_stell_outcome {params c : PyDict (ArgVal ℝ)} {D : DeRham} {B0 dB : V3 → V3} (hc : updateConfig P zero (devicePresets realLits) params stellConfig = .ok c)
    (hD : stellRun P zero params = .ok D) (hB : stellField c D = .ok B0) (hdB : pertOf c D = .ok dB) {name : PyStr} {cfg : RelaxConfig} {ff : Bool} {dt eta : ℝ} {gamma : Nat}
    (hn : runName W c = .ok name) (h1 : loopConfig zero c = .ok (cfg, ff)) (h2 : stateNums c = .ok (dt, eta, gamma)) :
    let T : Stepper := ⟨D, lib.pinv D.dd3, lib.lstsq, gamma, cfg.precond, ff⟩
    ((∃ f, stellMain lib W P zero params = .ok f) ↔ ∃ i, 1 ≤ i ∧ i ≤ cfg.maxit ∧ (i % cfg.saveEvery = 0 ∨ i = cfg.maxit) ∧
      Accepted cfg (T.env cfg.pertStrength dB W.clock) W.startTime
        (T.initState (D.projectedStart (lib.pinv D.dd3) cfg.applyPertAfter cfg.pertStrength B0 dB) dt eta) (emptyTrace _) i) ∧
    ((∃ f, stellMain lib W P zero params = .ok f) ∨ stellMain lib W P zero params = .error "ZeroDivisionError: float division by zero") := by
  intro T
  have e : stellMain lib W P zero params = finishProjected lib W zero "stell" ".h5" c D (.ok B0) := by
    unfold stellMain
    rw [hc]
    dsimp only
    have : stellBuild c = .ok D := by
      unfold stellRun at hD
      rw [hc] at hD
      exact hD
    rw [this]
    dsimp only
    rw [hB]
  rw [e]
  exact projected_outcome lib W zero _ _ B0 hdB hn h1 h2

end

/-! ## Cases -/

/-- Library functions and a clock for the cases. -/
noncomputable def someLib : NumLib := exists_sound.choose
theorem someLib_sound : Sound someLib := exists_sound.choose_spec
/-- The run that `wrote_case` is about, at some time. -/
noncomputable def someWorld : World := ⟨fun _ => ⟨0, by decide⟩, 0, 1, fun i => 1 + i, 7⟩

/-- Case of `C108_solovev_final`, `C108_solovev_inputs` (against itself), `C108_name`, `C108_saved_fields`: `solovev.py maxit=1`. -/
example := C108_solovev_final someLib someWorld asciiReal (fun _ => false) (wrote_case someLib someWorld asciiReal (fun _ => false) someLib_sound).choose_spec
example := C108_solovev_inputs someLib someWorld asciiReal (fun _ => false) someWorld (by simp) (by simp) (fun _ _ => rfl)
  (wrote_case someLib someWorld asciiReal (fun _ => false) someLib_sound).choose_spec (wrote_case someLib someWorld asciiReal (fun _ => false) someLib_sound).choose_spec
theorem wrote_case' : ∃ c f, Wrote someLib someWorld asciiReal (fun _ => false) [("maxit".toList, .int 1)] "solovev" ".h5" c f := by
  obtain ⟨f, hf⟩ := wrote_case someLib someWorld asciiReal (fun _ => false) someLib_sound
  obtain ⟨c, -, hc, -⟩ := solovevMain_ok _ _ _ _ hf
  exact ⟨c, f, .inl ⟨false, rfl, rfl, hc, hf⟩⟩
example := C108_name someLib someWorld asciiReal (fun _ => false) wrote_case'.choose_spec.choose_spec
example := C108_recorded someLib someWorld asciiReal (fun _ => false) wrote_case'.choose_spec.choose_spec
example := C108_saved_fields someLib someWorld asciiReal (fun _ => false) wrote_case'.choose_spec.choose_spec
example := C108_solovev_no_parameters someLib someWorld asciiReal (fun _ => false) someLib_sound
theorem first_accepted {V H : Type} (cfg : RelaxConfig) (env : RelaxEnv V H) (start : ℝ) (s : State V H) (t : Trace V) (ht : 1 ≤ cfg.solverTol) : Accepted cfg env start s t 1 := by
  refine ⟨rfl, 1, ?_, ht⟩
  unfold RelaxEnv.step
  rw [Returns.unique (C48_picard_terminates env.upd cfg.solverTol cfg.solverMaxit _) (C48_tol_ge_one ht)]

/-- Case of the claims about `iter_islands.py`: `iter_islands.py maxit=1 solver_tol=2` writes a file (with this tolerance every step counts as converged, see C48). -/
theorem iter_case (W : World) : ∃ f D, iterMain someLib W asciiReal (fun _ => false) [("maxit".toList, .int 1), ("solver_tol".toList, .int 2)] = .ok f ∧
    iterRun asciiReal (fun _ => false) [("maxit".toList, .int 1), ("solver_tol".toList, .int 2)] = .ok D ∧ RunOn 8 8 6 3 3 3 (cerfonMap 0.33 1.7 (arcsin 0.33) 1) D := by
  obtain ⟨D, hD, hR⟩ := C106_iter_default asciiReal (fun _ => false) (params := [("maxit".toList, .int 1), ("solver_tol".toList, .int 2)]) (by decide)
    (fun k hk => by revert hk k; decide) (nr := 8) (nt := 8) (nz := 6) (pr := 3) (pt := 3) (pz := 3)
    (fun x hx => by simp only [List.mem_cons, List.not_mem_nil, or_false] at hx; rcases hx with rfl | rfl | rfl | rfl | rfl | rfl <;> rfl)
    ⟨by norm_num, by norm_num, by norm_num⟩
  have hc : updateConfig asciiReal (fun _ => false) (devicePresets realLits) [("maxit".toList, .int 1), ("solver_tol".toList, .int 2)] iterConfig =
      .ok (iterConfig.update [("maxit".toList, .int 1), ("solver_tol".toList, .int 2)]) := rfl
  have hq : iterField (iterConfig.update [("maxit".toList, .int 1), ("solver_tol".toList, .int 2)]) D =
      .ok fun p => Manufactured.solovevB (realLits.lit 17 1) (Manufactured.iterTau (realLits.lit 154 2) (realLits.lit 17 1)) (D.F p) := rfl
  have hp : pertOf (iterConfig.update [("maxit".toList, .int 1), ("solver_tol".toList, .int 2)]) D =
      .ok (islandPert D.F (realLits.lit 5 1) (realLits.lit 7 2) ((2 : Int) : ℝ) ((1 : Int) : ℝ)) := rfl
  have hn : runName W (iterConfig.update [("maxit".toList, .int 1), ("solver_tol".toList, .int 2)]) = .ok (uniqueId W.rnd 8) := rfl
  have h1 : loopConfig (fun _ => false) (iterConfig.update [("maxit".toList, .int 1), ("solver_tol".toList, .int 2)]) =
      .ok (⟨1, ((2 : Int) : ℝ), 20, 4, realLits.lit 101 2, realLits.lit 1 15, false, 1000, realLits.lit 2 5, 2000, 10, false⟩, false) := rfl
  have h2 : stateNums (iterConfig.update [("maxit".toList, .int 1), ("solver_tol".toList, .int 2)]) = .ok (realLits.lit 1 4, realLits.lit 0 1, 0) := rfl
  obtain ⟨f, hf⟩ := (C108_iter_outcome someLib W asciiReal (fun _ => false) hc hD hq hp hn h1 h2).1.mpr ⟨1, le_refl _, le_refl _, .inr rfl, first_accepted _ _ _ _ _ (by norm_num)⟩
  exact ⟨f, D, hf, hD, hR⟩
example := C108_iter_final someLib someWorld asciiReal (fun _ => false) (iter_case someWorld).choose_spec.choose_spec.1
example := C108_iter_divergence_free someLib someWorld asciiReal (fun _ => false) someLib_sound (iter_case someWorld).choose_spec.choose_spec.2.1
  (iter_case someWorld).choose_spec.choose_spec.2.2 (iter_case someWorld).choose_spec.choose_spec.1
example (W' : World) := C108_iter_inputs someLib someWorld asciiReal (fun _ => false) W' (by decide) (by decide) (fun _ _ => rfl)
  (iter_case someWorld).choose_spec.choose_spec.1 (iter_case W').choose_spec.choose_spec.1

/-- Case of `C108_solovev_command`: `solovev.py save_every=1` with the other defaults. -/
example := C108_solovev_command someLib someWorld asciiReal (fun _ => false) someLib_sound (params := [("save_every".toList, .int 1)]) (by simp)
    (fun k hk => by
      revert hk k
      decide) (nr := 8) (nt := 8) (nz := 6) (pr := 3) (pt := 3) (pz := 3) (maxit := 5000) (save := 1)
    (fun x hx => by simp only [List.mem_cons, List.not_mem_nil, or_false] at hx; rcases hx with rfl | rfl | rfl | rfl | rfl | rfl <;> rfl)
    ⟨by norm_num, by norm_num, by norm_num⟩
    (fun x hx => by simp only [List.mem_cons, List.not_mem_nil, or_false] at hx; rcases hx with rfl | rfl <;> rfl) (by norm_num)

end Mrx.Props
