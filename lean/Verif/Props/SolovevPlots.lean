import Verif.Model.SolovevPlots
import Verif.Props.PlotScripts
import Verif.Props.SavedPlots

/-!
# C124: the figures of a saved `solovev.py` run

From the file a run has written to the sequence, the coefficients and the file names of its pressure figures, for all runs, names and contents of the disk.
-/

set_option linter.unusedVariables false
set_option linter.unusedSectionVars false

namespace Mrx.Props
open Mrx Spec Matrix DeRham Real IO

/-! ## Names -/

theorem padded_value (w n : Nat) : Nat.ofDigitChars 10 (padded w n) 0 = n := by
  unfold padded
  rw [Nat.ofDigitChars_append, Nat.ofDigitChars_replicate_zero, Nat.mul_zero, Nat.ofDigitChars_ten_toDigits]

theorem padded_inj {w n m : Nat} (h : padded w n = padded w m) : n = m := by
  rw [← padded_value w n, h, padded_value]

theorem minus_not_padded (w n : Nat) : '-' ∉ padded w n := by
  unfold padded
  intro h
  rcases List.mem_append.mp h with h | h
  · exact absurd (List.eq_of_mem_replicate h) (by decide)
  · exact absurd (Nat.isDigit_of_mem_toDigits (by decide) (by decide) h) (by decide)

theorem format06_inj {a b : Int} (h : format06 a = format06 b) : a = b := by
  unfold format06 at h
  by_cases ha : a < 0 <;> by_cases hb : b < 0
  · rw [if_pos ha, if_pos hb] at h
    have := padded_inj (List.cons.inj h).2
    omega
  · rw [if_pos ha, if_neg hb] at h
    exact absurd (h ▸ List.mem_cons_self) (minus_not_padded 6 b.natAbs)
  · rw [if_neg ha, if_pos hb] at h
    exact absurd (h ▸ List.mem_cons_self) (minus_not_padded 6 a.natAbs)
  · rw [if_neg ha, if_neg hb] at h
    have := padded_inj h
    omega

theorem pressureFile_inj {k : Int} (hk : k ≠ 0) {i j : Nat} (h : pressureFile k i = pressureFile k j) : i = j := by
  unfold pressureFile at h
  have h1 := format06_inj (List.append_cancel_left (List.append_cancel_right h))
  have := mul_right_cancel₀ hk h1
  omega

theorem savedFile_inj {a b : PyStr} (h : savedFile a = savedFile b) : a = b := by
  unfold savedFile savedDir at h
  have hl := congrArg List.length h
  simp only [List.length_append] at hl
  simp only [List.append_assoc, List.append_right_inj] at h
  exact (List.append_inj h (by omega)).1

theorem savedFile_eq (n : PyStr) : savedFile n = "script_outputs/".toList ++ "solovev".toList ++ "/".toList ++ n ++ "/".toList ++ n ++ ".h5".toList := by
  unfold savedFile savedDir
  rw [show "script_outputs/solovev/".toList = "script_outputs/".toList ++ "solovev".toList ++ "/".toList from by decide]

section
variable (lib : NumLib) (W : World) (P : PyChars ℝ) (zero : ℝ → Bool)

/-- **C124** `solovev_plots.py` finds the file of a `solovev.py` run under the name of the run, and under no other. -/
theorem C124_name {a : Bool} {params : PyDict (ArgVal ℝ)} {f : RunFile} (h : solovevMain lib W P zero a params = .ok f) :
    ∃ given n : PyStr, f.config.get? "run_name".toList = some (.str given) ∧ (given ≠ [] → n = given) ∧ ∀ m, savedFile m = f.name ↔ m = n := by
  obtain ⟨c, D, hc, -, -, -⟩ := solovevMain_ok lib W P zero h
  obtain ⟨given, n, h1, h2, -, h3, h4⟩ := C108_name lib W P zero (dir := "solovev") (ext := ".h5") (.inl ⟨a, rfl, rfl, hc, h⟩)
  refine ⟨given, n, by rw [h4]; exact h1, h2, fun m => ?_⟩
  rw [h3, ← savedFile_eq]
  exact ⟨savedFile_inj, fun e => by rw [e]⟩

/-- **C124** files of the other relaxation scripts are never opened. -/
theorem C124_other_scripts {params c : PyDict (ArgVal ℝ)} {dir ext : String} {f : RunFile} (h : Wrote lib W P zero params dir ext c f) (hd : dir ≠ "solovev") (m : PyStr) :
    f.name ≠ savedFile m := by
  obtain ⟨given, n, -, -, -, hn, -⟩ := C108_name lib W P zero h
  have hdir : '/' ∉ dir.toList := by
    rcases h with ⟨a, rfl, rfl, -⟩ | ⟨rfl, rfl, -⟩ | ⟨rfl, rfl, -⟩ <;> decide
  rw [hn, savedFile_eq]
  intro e
  have e' : ("script_outputs/".toList ++ dir.toList) ++ "/".toList ++ (n ++ "/".toList ++ n ++ ext.toList) =
      ("script_outputs/".toList ++ "solovev".toList) ++ "/".toList ++ (m ++ "/".toList ++ m ++ ".h5".toList) := by
    simpa only [List.append_assoc] using e
  exact hd (dir_ne e' hdir (by decide))

/-! ## The figures -/

theorem mk?_other_map {ns ps : Nat × Nat × Nat} {q : Nat} {types : String × String × String} {F : V3 → V3} {D : DeRham} (h : DeRham.mk? ns ps q types F true true = .ok D) (G : V3 → V3) :
    D.F = F ∧ ∃ D', DeRham.mk? ns ps q types G true true = .ok D' ∧ D'.F = G ∧ D'.S = D.S ∧ D'.m0 = D.m0 := by
  unfold DeRham.mk? at h ⊢
  rcases hS : Seq.mk? (K := ℝ) ns ps q types with e | S
  · rw [hS] at h; cases h
  · rw [hS] at h
    obtain rfl := Except.ok.inj h
    exact ⟨rfl, _, rfl, rfl, rfl, rfl⟩

theorem buildRun_inv {c : PyDict (ArgVal ℝ)} {F : V3 → V3} {D : DeRham} (h : buildRun c F = .ok D) :
    ∃ ns ps, sizesOf c = .ok (ns, ps) ∧ DeRham.mk? ns ps (pointsOf ps) (typesOf ns.2.2) F true true = .ok D := by
  unfold buildRun at h
  split at h
  · cases h
  · rename_i ns ps hs
    split at h
    · cases h
    · rename_i D' hD
      split at h
      · obtain rfl := Except.ok.inj h
        exact ⟨ns, ps, hs, hD⟩
      · cases h

/-- The pressure figures: the final pressure in `p_final.pdf`; if fields were saved, saved pressure number `i` in `p_iter_N.pdf`, where `N` are the digits of `i` times `save_every`, with zeros in front
up to six characters. -/
def PressureFigures (f : RunFile) (figs : List (PyStr × Option (List ℝ))) : Prop :=
  ∃ k : Int, configInt f.config "save_every" = .ok k ∧ figs[0]? = some ("p_final.pdf".toList, f.pfinal) ∧
    (f.fields = none → figs.length = 1) ∧
    ∀ Bs ps, f.fields = some (Bs, ps) → figs.length = ps.length + 1 ∧ ∀ (i : Nat) (hi : i < ps.length), ∃ N : PyStr, figs[i + 1]? = some ("p_iter_".toList ++ N ++ ".pdf".toList, ps[i]) ∧
      ∃ zeros : Nat, 0 < k → N = List.replicate zeros '0' ++ (toString (i * k.toNat)).toList ∧ N.length = max 6 (toString (i * k.toNat)).toList.length

theorem digits_toString (n : Nat) : (toString n).toList = Nat.toDigits 10 n := by
  rw [Nat.toString_eq_ofList_toDigits, String.toList_ofList]

theorem names_nodup {A B : Type} (x : A) (y : B) (g : Nat → A) (b : Nat → B) (hg : Function.Injective g) (hx : ∀ i, g i ≠ x) (n : Nat) :
    (((x, y) :: (List.range n).map fun i => (g i, b i)).map (·.1)).Nodup := by
  rw [List.map_cons, List.map_map]
  refine List.nodup_cons.mpr ⟨fun hmem => ?_, List.nodup_range.map hg⟩
  obtain ⟨i, -, hi⟩ := List.mem_map.mp hmem
  exact hx i hi

theorem final_ne (k : Int) (i : Nat) : pressureFile k i ≠ "p_final.pdf".toList := by
  intro hi
  unfold pressureFile at hi
  have := congrArg (fun l : PyStr => l[2]?) hi
  simp at this

/-- **C124** if the file of a `solovev.py` run is there under the name given, and `R_0` is a number, the script draws `p_final` and all saved pressures, each in a file of its own, in the directory of
the run; with the spaces and the number of degrees of freedom of the run, on the map `cerfon_map(eps, kappa, arcsin(delta), R_0)`, whatever the map of the run was. -/
theorem C124_figures {a : Bool} {params : PyDict (ArgVal ℝ)} {f : RunFile} (h : solovevMain lib W P zero a params = .ok f) {fs : PyStr → Option RunFile} {plotParams : PyDict (ArgVal ℝ)} {m : PyStr}
    (hm : plotParams.get? "run_name".toList = some (.str m)) (hfs : fs (savedFile m) = some f) {δ κ ε R : ℝ} (h1 : configNum f.config "delta" = .ok δ) (h2 : configNum f.config "kappa" = .ok κ)
    (h3 : configNum f.config "eps" = .ok ε) (h4 : configNum f.config "R_0" = .ok R) :
    ∃ D D' figs, solovevRun P zero a params = .ok D ∧ solovevPlots zero fs plotParams = .ok ⟨D', "script_outputs/solovev/".toList ++ m ++ "/".toList, figs⟩ ∧
      D'.F = cerfonMap ε κ (arcsin δ) R ∧ D'.S = D.S ∧ D'.m0 = D.m0 ∧ (D.F = cerfonMap ε κ (arcsin δ) R → D' = D) ∧ PressureFigures f figs ∧ (figs.map (·.1)).Nodup := by
  obtain ⟨c, D, hc, hD, hb, hf⟩ := solovevMain_ok lib W P zero h
  have hw : Wrote lib W P zero params "solovev" ".h5" c f := .inl ⟨a, rfl, rfl, hc, h⟩
  obtain ⟨-, -, -, -, -, -, hcf⟩ := C108_name lib W P zero hw
  obtain ⟨hsave, -⟩ := C108_saved_fields lib W P zero hw
  obtain ⟨name, cfg, ff, dt, eta, gamma, B, -, hcfg, -, hB, -, -, -⟩ := (finishWith_ok lib W zero _ _ c D _ _ f).mp hf
  obtain ⟨_, _, k, -, -, -, -, -, -, -, -, -, -, -, -, hk, hk0, -⟩ := loopConfig_inv hcfg
  unfold solovevBuild at hb
  split at hb
  · cases hb
  rename_i F hF
  obtain ⟨ns, ps, hs, hmk⟩ := buildRun_inv hb
  obtain ⟨hDF, D', hD', hF', hS', hm0⟩ := mk?_other_map hmk (cerfonMap ε κ (arcsin δ) R)
  rw [← hcf] at hsave hk hs
  obtain ⟨figs, hfig, hspec, hnd⟩ : ∃ figs, fieldFigures f.config f.fields.isSome f.fields = .ok figs ∧ PressureFigures f (("p_final.pdf".toList, f.pfinal) :: figs) ∧
      ((("p_final.pdf".toList, f.pfinal) :: figs).map (·.1)).Nodup := by
    rcases hfd : f.fields with _ | ⟨Bs, pps⟩
    · refine ⟨[], rfl, ⟨k, hk, rfl, fun _ => rfl, fun Bs ps e => ?_⟩, by simp⟩
      rw [hfd] at e; cases e
    · refine ⟨(List.range pps.length).map fun i => (pressureFile k i, pps.getD i none), ?_, ⟨k, hk, rfl, fun e => ?_, fun Bs' ps' e => ?_⟩, ?_⟩
      · unfold fieldFigures
        rw [hk]
        rfl
      · rw [hfd] at e; cases e
      · rw [hfd] at e
        obtain ⟨rfl, rfl⟩ := Prod.mk.inj (Option.some.inj e)
        refine ⟨by simp, fun i hi => ⟨format06 (i * k), ?_, 6 - (Nat.toDigits 10 (i * k.toNat)).length, fun hpos => ?_⟩⟩
        · rw [List.getElem?_cons_succ, List.getElem?_map, List.getElem?_range hi, Option.map_some, List.getD_eq_getElem _ _ hi]
          rfl
        · have e1 : ((i : Int) * k).natAbs = i * k.toNat := by
            rw [Int.natAbs_mul, Int.natAbs_natCast]
            congr 1
            omega
          have e2 : ¬ ((i : Int) * k < 0) := not_lt.mpr (mul_nonneg (Int.natCast_nonneg i) hpos.le)
          unfold format06
          rw [if_neg e2, e1, digits_toString]
          refine ⟨rfl, ?_⟩
          unfold padded
          rw [List.length_append, List.length_replicate]
          omega
      · exact names_nodup _ _ _ _ (fun i j e => pressureFile_inj hk0 e) (final_ne k) _
  refine ⟨D, D', _, hD, ?_, hF', hS', hm0, fun e => ?_, hspec, hnd⟩
  · unfold solovevPlots
    rw [hm]
    change generatePlots zero fs m = _
    unfold generatePlots
    rw [hfs]
    dsimp only
    have hmap : savedMapOf f.config = .ok (cerfonMap ε κ (arcsin δ) R) := by
      unfold savedMapOf
      rw [h1, h2, h3, h4]
    have hseq : savedSequence f.config (cerfonMap ε κ (arcsin δ) R) = .ok D' := by
      unfold savedSequence
      rw [hs]
      exact hD'
    rw [hsave, hmap]
    dsimp only
    rw [hseq]
    dsimp only
    rw [hfig]
    rfl
  · rw [hDF] at e
    subst e
    rw [hmk] at hD'
    exact (Except.ok.inj hD').symm

/-- **C124** a tokamak run with `R_0 = 1` is drawn with its own sequence. -/
theorem C124_tokamak {a : Bool} {params : PyDict (ArgVal ℝ)} {f : RunFile} (h : solovevMain lib W P zero a params = .ok f) {fs : PyStr → Option RunFile} {plotParams : PyDict (ArgVal ℝ)} {m : PyStr}
    (hm : plotParams.get? "run_name".toList = some (.str m)) (hfs : fs (savedFile m) = some f) (ht : f.config.get? "boundary_type".toList = some (.str "tokamak".toList))
    (hR : configNum f.config "R_0" = .ok 1) :
    ∃ D figs, solovevRun P zero a params = .ok D ∧ solovevPlots zero fs plotParams = .ok ⟨D, "script_outputs/solovev/".toList ++ m ++ "/".toList, figs⟩ ∧ PressureFigures f figs := by
  obtain ⟨c, D, hc, hD, hb, hf⟩ := solovevMain_ok lib W P zero h
  obtain ⟨-, -, -, -, -, -, hcf⟩ := C108_name lib W P zero (dir := "solovev") (ext := ".h5") (.inl ⟨a, rfl, rfl, hc, h⟩)
  subst hcf
  unfold solovevBuild solovevMapOf at hb
  rw [ht] at hb
  dsimp only at hb
  rw [if_pos rfl] at hb
  unfold tokamakOf at hb
  split at hb
  · cases hb
  rename_i F hF
  split at hF
  case h_2 => cases hF
  rename_i e k d h1 h2 h3
  split_ifs at hF
  obtain rfl := Except.ok.inj hF
  obtain ⟨ns, ps, -, hmk⟩ := buildRun_inv hb
  obtain ⟨D0, D', figs, hD0, hp, -, -, -, hsame, hfig, -⟩ := C124_figures lib W P zero h hm hfs h3 h2 h1 hR
  rw [hD] at hD0
  obtain rfl := Except.ok.inj hD0
  have := hsame (by rw [(mk?_other_map hmk (fun x => x)).1]; norm_num)
  subst this
  exact ⟨_, figs, hD, hp, hfig⟩

/-- **C124 (finding)** a tokamak run with another `R_0`, or a run on a rotating ellipse that is not circular, is drawn on another domain than that of its own sequence. -/
theorem C124_wrong_domain {a : Bool} {params : PyDict (ArgVal ℝ)} {f : RunFile} (h : solovevMain lib W P zero a params = .ok f) {fs : PyStr → Option RunFile} {plotParams : PyDict (ArgVal ℝ)}
    {m : PyStr} (hm : plotParams.get? "run_name".toList = some (.str m)) (hfs : fs (savedFile m) = some f) {δ κ ε R : ℝ} (h1 : configNum f.config "delta" = .ok δ)
    (h2 : configNum f.config "kappa" = .ok κ) (h3 : configNum f.config "eps" = .ok ε) (h4 : configNum f.config "R_0" = .ok R) (hε : 0 < ε)
    (ht : f.config.get? "boundary_type".toList = some (.str "tokamak".toList) ∧ R ≠ 1 ∨ f.config.get? "boundary_type".toList = some (.str "rotating_ellipse".toList) ∧ κ ≠ 1 ∧ R = 1) :
    ∃ D D' figs, solovevRun P zero a params = .ok D ∧ solovevPlots zero fs plotParams = .ok ⟨D', "script_outputs/solovev/".toList ++ m ++ "/".toList, figs⟩ ∧ D'.F ![1, 0, 0] ≠ D.F ![1, 0, 0] := by
  obtain ⟨D, D', figs, hD, hp, hF', -⟩ := C124_figures lib W P zero h hm hfs h1 h2 h3 h4
  refine ⟨D, D', figs, hD, hp, ?_⟩
  obtain ⟨c, D0, hc, hD0, hb, hf⟩ := solovevMain_ok lib W P zero h
  rw [hD] at hD0
  obtain rfl := Except.ok.inj hD0
  obtain ⟨-, -, -, -, -, -, hcf⟩ := C108_name lib W P zero (dir := "solovev") (ext := ".h5") (.inl ⟨a, rfl, rfl, hc, h⟩)
  subst hcf
  unfold solovevBuild at hb
  split at hb
  · cases hb
  rename_i F hF
  obtain ⟨ns, ps, -, hmk⟩ := buildRun_inv hb
  rw [hF', (mk?_other_map hmk F).1]
  unfold solovevMapOf at hF
  rcases ht with ⟨ht, hR⟩ | ⟨ht, hκ, rfl⟩
  · rw [ht] at hF
    dsimp only at hF
    rw [if_pos rfl] at hF
    unfold tokamakOf at hF
    rw [h1, h2, h3] at hF
    dsimp only at hF
    split_ifs at hF
    obtain rfl := Except.ok.inj hF
    intro e
    have e0 := congrFun e 0
    rw [cerfon_outer _ _ _ _ hε, cerfon_outer _ _ _ _ hε] at e0
    exact hR (by norm_num at e0; linarith)
  · rw [ht] at hF
    dsimp only at hF
    rw [if_neg (by decide), if_neg (by decide), if_pos rfl] at hF
    unfold ellipseOf at hF
    rw [h2, h3] at hF
    split at hF
    case h_2 => cases hF
    rename_i n _ _ hn
    rename_i e1 e2
    obtain rfl := Except.ok.inj e1
    obtain rfl := Except.ok.inj e2
    have hpos : 0 < n := by
      by_contra hc0
      unfold rotatingEllipseMap at hF
      rw [if_pos (by omega)] at hF
      cases hF
    obtain ⟨F2, hF2, hne⟩ := (C92_wrong_domain ⟨"rotating_ellipse", ε, κ, δ, n, 0, 1⟩ hε rfl).1 rfl hpos hκ
    unfold solveDomain at hF2
    rw [if_neg (show ¬ ("rotating_ellipse" = "tokamak") by decide), if_neg (show ¬ ("rotating_ellipse" = "helix") by decide), if_pos rfl] at hF2
    rw [hF] at hF2
    obtain rfl := Except.ok.inj hF2
    exact fun e => hne e.symm

/-- **C124** without a run name, with one that is read as a number or a boolean, or without the file, the script raises and draws nothing. -/
theorem C124_exceptions (fs : PyStr → Option RunFile) (plotParams : PyDict (ArgVal ℝ)) :
    (plotParams.get? "run_name".toList = none → solovevPlots zero fs plotParams = .error "KeyError: 'run_name'") ∧
    ((∃ v, plotParams.get? "run_name".toList = some v ∧ ∀ s, v ≠ .str s) → solovevPlots zero fs plotParams = .error "TypeError") ∧
    ∀ m, plotParams.get? "run_name".toList = some (.str m) → fs ("script_outputs/solovev/".toList ++ m ++ "/".toList ++ m ++ ".h5".toList) = none →
      solovevPlots zero fs plotParams = .error "FileNotFoundError" := by
  unfold solovevPlots
  refine ⟨fun h => by rw [h], ?_, fun m h hf => ?_⟩
  · rintro ⟨v, hv, hn⟩
    rw [hv]
    cases v with
    | str s => exact absurd rfl (hn s)
    | _ => rfl
  · rw [h]
    change generatePlots zero fs m = _
    unfold generatePlots
    rw [show savedFile m = "script_outputs/solovev/".toList ++ m ++ "/".toList ++ m ++ ".h5".toList from rfl, hf]

end

/-! ## Cases -/

/-- `solovev.py maxit=1`: the rotating ellipse. -/
theorem saved_case : ∃ f m, solovevMain someLib someWorld asciiReal (fun _ => false) false [("maxit".toList, .int 1)] = .ok f ∧ only f (savedFile m) = some f ∧
    configNum f.config "delta" = .ok (realLits.lit 0 1) ∧ configNum f.config "kappa" = .ok (realLits.lit 17 1) ∧ configNum f.config "eps" = .ok (realLits.lit 2 1) ∧
    configNum f.config "R_0" = .ok (realLits.lit 10 1) ∧ f.config.get? "boundary_type".toList = some (.str "rotating_ellipse".toList) := by
  obtain ⟨f, hf⟩ := wrote_case someLib someWorld asciiReal (fun _ => false) someLib_sound
  obtain ⟨given, n, -, -, h3⟩ := C124_name _ _ _ _ hf
  obtain ⟨c, -, hc, -⟩ := solovevMain_ok _ _ _ _ hf
  obtain ⟨-, -, -, -, -, -, e⟩ := C108_name someLib someWorld asciiReal (fun _ => false) (dir := "solovev") (ext := ".h5") (.inl ⟨false, rfl, rfl, hc, hf⟩)
  refine ⟨f, n, hf, if_pos ((h3 n).mpr rfl), ?_⟩
  rw [e, ← Except.ok.inj hc]
  exact ⟨rfl, rfl, rfl, rfl, rfl⟩

/-- Case of `C124_figures` and `C124_wrong_domain`. -/
example : ∃ fs plotParams D D' figs, solovevRun asciiReal (fun _ => false) false [("maxit".toList, .int 1)] = .ok D ∧ solovevPlots (fun _ => false) fs plotParams = .ok figs ∧ figs.D = D' ∧
    D'.F ![1, 0, 0] ≠ D.F ![1, 0, 0] := by
  obtain ⟨f, m, hf, hm, h1, h2, h3, h4, h5⟩ := saved_case
  obtain ⟨D, D', figs, a, b, c⟩ := C124_wrong_domain someLib someWorld asciiReal (fun _ => false) hf (plotParams := [("run_name".toList, .str m)]) rfl hm h1 h2 h3 h4 (by norm_num [realLits])
    (.inr ⟨h5, by norm_num [realLits], by norm_num [realLits]⟩)
  exact ⟨_, _, D, D', _, a, b, rfl, c⟩
example := fun (f : RunFile) (h : solovevMain someLib someWorld asciiReal (fun _ => false) false [("maxit".toList, .int 1)] = .ok f) => C124_name someLib someWorld asciiReal (fun _ => false) h
example := C124_other_scripts someLib someWorld asciiReal (fun _ => false) (dir := "iter") (ext := ".h5") (.inr (.inl ⟨rfl, rfl, rfl, (iter_case someWorld).choose_spec.choose_spec.1⟩)) (by decide)

/-- `solovev.py device=iter boundary_type=tokamak maxit=1 save_B=true`. -/
def tokamakParams : PyDict (ArgVal ℝ) :=
  [("device".toList, .str "iter".toList), ("boundary_type".toList, .str "tokamak".toList), ("maxit".toList, .int 1), ("save_B".toList, .bool true)]

/-- It writes a file. -/
theorem tokamak_case : ∃ f m, solovevMain someLib someWorld asciiReal (fun _ => false) false tokamakParams = .ok f ∧ only f (savedFile m) = some f ∧
    f.config.get? "boundary_type".toList = some (.str "tokamak".toList) ∧ configNum f.config "R_0" = .ok 1 := by
  obtain ⟨D, hD, hR⟩ := C106_solovev_tokamak asciiReal (fun _ => false) (params := tokamakParams)
    (by decide) (s := "iter".toList) rfl (name := "ITER") (e := 0.32) (k := 1.7) (d := 0.33) (by simp) (by decide) (by decide) rfl
    (fun k hk => by simp only [List.mem_cons, List.not_mem_nil, or_false] at hk; rcases hk with rfl | rfl | rfl <;> rfl) (nr := 8) (nt := 8) (nz := 1) (pr := 3) (pt := 3) (pz := 0)
    (fun x hx => by simp only [List.mem_cons, List.not_mem_nil, or_false] at hx; rcases hx with rfl | rfl | rfl | rfl | rfl | rfl <;> rfl)
    ⟨by norm_num, by norm_num, by norm_num⟩
  obtain ⟨f, hf, -⟩ := ((C108_solovev_outcome someLib someWorld asciiReal (fun _ => false) (a := false) (params := tokamakParams) rfl hD hR (someLib_sound.eigh _ _ (symmetrize_symm _))
    someLib_sound.lstsq (name := uniqueId someWorld.rnd 8) (cfg := ⟨1, realLits.lit 1 12, 20, 4, realLits.lit 101 2, realLits.lit 1 15, false, 1000, realLits.lit 0 1, 2000, 100, true⟩)
    (ff := false) (dt := realLits.lit 1 6) (eta := realLits.lit 0 1) (gamma := 0) rfl rfl rfl (by norm_num [realLits]) (by norm_num [realLits]) (by norm_num) (by norm_num [realLits])).2
    (fun h => by norm_num [realLits] at h)).1 (.inl rfl)
  obtain ⟨given, n, -, -, h3⟩ := C124_name _ _ _ _ hf
  obtain ⟨c, -, hc, -⟩ := solovevMain_ok _ _ _ _ hf
  obtain ⟨-, -, -, -, -, -, e⟩ := C108_name someLib someWorld asciiReal (fun _ => false) (dir := "solovev") (ext := ".h5") (.inl ⟨false, rfl, rfl, hc, hf⟩)
  refine ⟨f, n, hf, if_pos ((h3 n).mpr rfl), ?_⟩
  rw [e, ← Except.ok.inj hc]
  have hone : realLits.lit 10 1 = (1 : ℝ) := by norm_num [realLits]
  refine ⟨rfl, ?_⟩
  rw [← hone]
  rfl

/-- Case of `C124_tokamak`. -/
example : ∃ fs plotParams D figs, solovevRun asciiReal (fun _ => false) false tokamakParams = .ok D ∧ solovevPlots (fun _ => false) fs plotParams = .ok figs ∧ figs.D = D := by
  obtain ⟨f, m, hf, hm, h1, h2⟩ := tokamak_case
  obtain ⟨D, figs, a, b, -⟩ := C124_tokamak someLib someWorld asciiReal (fun _ => false) hf (plotParams := [("run_name".toList, .str m)]) rfl hm h1 h2
  exact ⟨_, _, D, _, a, b, rfl⟩

end Mrx.Props
