import Verif.Model.RunScripts

/-!
# C123 The batch runner

`python run_scripts.py` on every computer: whatever the directories contain and the scripts do.
-/

set_option linter.unusedSectionVars false
set_option linter.unusedVariables false

namespace Mrx.Props
open Mrx IO RunScripts

/-! ## Specification -/

open Classical in
/-- The names that end in `.py`. -/
noncomputable def pyNames (l : List PyStr) : List PyStr := l.filter fun f => decide (∃ g, f = g ++ ".py".toList)

/-- The scripts started, in order. -/
def started (l : List Line) : List PyStr := l.filterMap fun | .running p => some p | _ => none

/-- The outputs printed, with the names. -/
def outputs (l : List Line) : List (PyStr × PyStr) := l.filterMap fun | .output f t => some (f, t) | _ => none

/-- The errors printed, with the names. -/
def errorTexts (l : List Line) : List (PyStr × PyStr) := l.filterMap fun | .errors f t => some (f, t) | _ => none

section
variable {W : Type}

/-- The results of scripts run one after the other. -/
def resultsOf (res : W → PyStr → Result) (next : W → PyStr → W) : List PyStr → W → List Result
  | [], _ => []
  | p :: ps, w => res w p :: resultsOf res next ps (next w p)

/-! ## One directory -/

theorem isPy_iff (f : PyStr) : isPy f = true ↔ ∃ g, f = g ++ ".py".toList := by
  unfold isPy
  rw [List.isSuffixOf_iff_suffix]
  exact ⟨fun ⟨g, h⟩ => ⟨g, h.symm⟩, fun ⟨g, h⟩ => ⟨g, h.symm⟩⟩

theorem filter_isPy (l : List PyStr) : l.filter isPy = pyNames l := by
  unfold pyNames
  refine List.filter_congr fun f _ => ?_
  by_cases h : ∃ g, f = g ++ ".py".toList
  · rw [(isPy_iff f).mpr h]; exact (@decide_eq_true _ (Classical.propDecidable _) h).symm
  · have : isPy f = false := by
      cases e : isPy f
      · rfl
      · exact absurd ((isPy_iff f).mp e) h
    rw [this]; exact (@decide_eq_false _ (Classical.propDecidable _) h).symm

theorem resultsOf_append (res : W → PyStr → Result) (next : W → PyStr → W) (a b : List PyStr) (w : W) :
    resultsOf res next (a ++ b) w = resultsOf res next a w ++ resultsOf res next b (a.foldl next w) := by
  induction a generalizing w with
  | nil => rfl
  | cons p a ih => simp [resultsOf, ih]

theorem resultsOf_length (res : W → PyStr → Result) (next : W → PyStr → W) (a : List PyStr) (w : W) : (resultsOf res next a w).length = a.length := by
  induction a generalizing w with
  | nil => rfl
  | cons p a ih => simp [resultsOf, ih]

variable (M : Machine W) (res : W → PyStr → Result) (next : W → PyStr → W)

theorem runFiles_ok (hpy : ∀ w p, M.python w p = .ok (res w p, next w p)) (dir pre : PyStr) (files : List PyStr) (hj : ∀ f ∈ files, joinPath dir f = pre ++ f) (w : W) :
    (runFiles M dir files w).2 = .ok ((files.map (pre ++ ·)).foldl next w) ∧ started (runFiles M dir files w).1 = files.map (pre ++ ·) ∧
    outputs (runFiles M dir files w).1 = files.zip ((resultsOf res next (files.map (pre ++ ·)) w).map Result.out) ∧
    errorTexts (runFiles M dir files w).1 = (files.zip ((resultsOf res next (files.map (pre ++ ·)) w).map Result.err)).filter fun e => e.2 ≠ [] := by
  induction files generalizing w with
  | nil => exact ⟨rfl, rfl, rfl, rfl⟩
  | cons f files ih =>
    obtain ⟨a, b, c, d⟩ := ih (fun g hg => hj g (List.mem_cons_of_mem _ hg)) (next w (pre ++ f))
    unfold runFiles
    dsimp only
    rw [hj f List.mem_cons_self, hpy]
    dsimp only
    refine ⟨by rw [a]; rfl, ?_, ?_, ?_⟩
    · unfold started at b ⊢
      by_cases he : (res w (pre ++ f)).err = [] <;> simp [he, b]
    · unfold outputs at c ⊢
      by_cases he : (res w (pre ++ f)).err = [] <;> simp [he, c, resultsOf]
    · unfold errorTexts at d ⊢
      by_cases he : (res w (pre ++ f)).err = [] <;> simp [he, d, resultsOf]

theorem runFiles_stops (dir pre : PyStr) (a b : List PyStr) (p : PyStr) (e : String) (hj : ∀ f ∈ a ++ p :: b, joinPath dir f = pre ++ f)
    (ha : ∀ w, ∀ f ∈ a, M.python w (pre ++ f) = .ok (res w (pre ++ f), next w (pre ++ f))) (he : ∀ w, M.python w (pre ++ p) = .error e) (w : W) :
    (runFiles M dir (a ++ p :: b) w).2 = .error e ∧ started (runFiles M dir (a ++ p :: b) w).1 = (a ++ [p]).map (pre ++ ·) := by
  induction a generalizing w with
  | nil =>
    simp only [List.nil_append]
    unfold runFiles
    dsimp only
    rw [hj p (by simp), he]
    exact ⟨rfl, rfl⟩
  | cons f a ih =>
    obtain ⟨x, y⟩ := ih (fun g hg => hj g (List.mem_cons_of_mem _ hg)) (fun w g hg => ha w g (List.mem_cons_of_mem _ hg)) (next w (pre ++ f))
    rw [List.cons_append]
    unfold runFiles
    dsimp only
    rw [hj f (by simp), ha w f List.mem_cons_self]
    dsimp only
    refine ⟨x, ?_⟩
    unfold started at y ⊢
    by_cases hc : (res w (pre ++ f)).err = [] <;> simp [hc, y]

theorem join_tutorials (f : PyStr) (h : f.head? ≠ some '/') : joinPath "scripts/tutorials".toList f = "scripts/tutorials/".toList ++ f := by
  unfold joinPath
  rw [if_neg h, if_neg (by decide)]
  rfl

theorem join_interactive (f : PyStr) (h : f.head? ≠ some '/') : joinPath "scripts/interactive/".toList f = "scripts/interactive/".toList ++ f := by
  unfold joinPath
  rw [if_neg h, if_pos (by decide)]

/-! ## The script -/

variable {w : W} {l1 l2 : List PyStr}

/-- **C123** if the two directories can be listed and Python can be started, all their files ending in `.py` are run, each once, those of `scripts/tutorials` first, in the order of the listings, each from
the repository's directory in the state the one before has left, whether or not the others fail; the output of each is printed under its name, and what it wrote to the standard error exactly if it
wrote something. Files that appear while the scripts of a directory are running are not run. -/
theorem C123_all_run (hpy : ∀ w p, M.python w p = .ok (res w p, next w p)) (h1 : M.listdir w "scripts/tutorials".toList = .ok l1) (s1 : ∀ f ∈ l1, f.head? ≠ some '/')
    (h2 : M.listdir (((pyNames l1).map ("scripts/tutorials/".toList ++ ·)).foldl next w) "scripts/interactive/".toList = .ok l2) (s2 : ∀ f ∈ l2, f.head? ≠ some '/') :
    let paths := (pyNames l1).map ("scripts/tutorials/".toList ++ ·) ++ (pyNames l2).map ("scripts/interactive/".toList ++ ·)
    let results := resultsOf res next paths w
    (main M w).2 = .ok (paths.foldl next w) ∧ started (main M w).1 = paths ∧ (l1.Nodup → l2.Nodup → paths.Nodup) ∧
    outputs (main M w).1 = (pyNames l1 ++ pyNames l2).zip (results.map Result.out) ∧
    errorTexts (main M w).1 = ((pyNames l1 ++ pyNames l2).zip (results.map Result.err)).filter fun e => e.2 ≠ [] := by
  intro paths results
  have m1 : ∀ f ∈ pyNames l1, f.head? ≠ some '/' := fun f hf => s1 f (List.mem_of_mem_filter hf)
  have m2 : ∀ f ∈ pyNames l2, f.head? ≠ some '/' := fun f hf => s2 f (List.mem_of_mem_filter hf)
  obtain ⟨a1, b1, c1, d1⟩ := runFiles_ok M res next hpy "scripts/tutorials".toList "scripts/tutorials/".toList (pyNames l1) (fun f hf => join_tutorials f (m1 f hf)) w
  obtain ⟨w1, hw1⟩ : ∃ w1, w1 = ((pyNames l1).map ("scripts/tutorials/".toList ++ ·)).foldl next w := ⟨_, rfl⟩
  rw [← hw1] at h2 a1
  obtain ⟨a2, b2, c2, d2⟩ := runFiles_ok M res next hpy "scripts/interactive/".toList "scripts/interactive/".toList (pyNames l2) (fun f hf => join_interactive f (m2 f hf)) w1
  have e1 : runAllScripts M "scripts/tutorials".toList w = runFiles M "scripts/tutorials".toList (pyNames l1) w := by
    unfold runAllScripts; rw [h1]; dsimp only; rw [filter_isPy]
  have e2 : runAllScripts M "scripts/interactive/".toList w1 = runFiles M "scripts/interactive/".toList (pyNames l2) w1 := by
    unfold runAllScripts; rw [h2]; dsimp only; rw [filter_isPy]
  have em : main M w = ((runFiles M "scripts/tutorials".toList (pyNames l1) w).1 ++ (runFiles M "scripts/interactive/".toList (pyNames l2) w1).1,
      (runFiles M "scripts/interactive/".toList (pyNames l2) w1).2) := by
    unfold main
    rw [e1]
    generalize runFiles M "scripts/tutorials".toList (pyNames l1) w = r at a1 ⊢
    obtain ⟨l, o⟩ := r
    dsimp only at a1
    subst a1
    dsimp only
    rw [e2]
  have hlen := resultsOf_length res next ((pyNames l1).map ("scripts/tutorials/".toList ++ ·)) w
  have hres : results = resultsOf res next ((pyNames l1).map ("scripts/tutorials/".toList ++ ·)) w ++ resultsOf res next ((pyNames l2).map ("scripts/interactive/".toList ++ ·)) w1 := by
    show resultsOf res next (_ ++ _) w = _
    rw [resultsOf_append, ← hw1]
  rw [em]
  refine ⟨?_, ?_, ?_, ?_, ?_⟩
  · rw [a2, hw1, ← List.foldl_append]
  · unfold started at b1 b2 ⊢
    dsimp only
    rw [List.filterMap_append, b1, b2]
  · intro n1 n2
    have inj : ∀ p : PyStr, Function.Injective (p ++ · : PyStr → PyStr) := fun p a b h => List.append_cancel_left h
    refine List.nodup_append.mpr ⟨(n1.filter _).map (inj _), (n2.filter _).map (inj _), ?_⟩
    rintro a ha b hb rfl
    obtain ⟨f, -, hf⟩ := List.mem_map.mp ha
    obtain ⟨g, -, hg⟩ := List.mem_map.mp hb
    rw [← hg] at hf
    have := congrArg (fun l => l[8]?) hf
    simp at this
  · unfold outputs at c1 c2 ⊢
    dsimp only
    rw [List.filterMap_append, c1, c2, hres, List.map_append, List.zip_append (by simpa using hlen.symm)]
  · unfold errorTexts at d1 d2 ⊢
    dsimp only
    rw [List.filterMap_append, d1, d2, hres, List.map_append, List.zip_append (by simpa using hlen.symm), List.filter_append]

/-- **C123** if a tutorial cannot be started (or its output is not text), the scripts before it have been run, none after it is, and the exit code is 1. -/
theorem C123_stops (a b : List PyStr) (p : PyStr) (e : String) (h1 : M.listdir w "scripts/tutorials".toList = .ok l1) (s1 : ∀ f ∈ l1, f.head? ≠ some '/') (hl : pyNames l1 = a ++ p :: b)
    (ha : ∀ w, ∀ f ∈ a, M.python w ("scripts/tutorials/".toList ++ f) = .ok (res w ("scripts/tutorials/".toList ++ f), next w ("scripts/tutorials/".toList ++ f)))
    (he : ∀ w, M.python w ("scripts/tutorials/".toList ++ p) = .error e) :
    (main M w).2 = .error e ∧ exitCode (main M w) = 1 ∧ started (main M w).1 = (a ++ [p]).map ("scripts/tutorials/".toList ++ ·) := by
  have m1 : ∀ f ∈ pyNames l1, f.head? ≠ some '/' := fun f hf => s1 f (List.mem_of_mem_filter hf)
  rw [hl] at m1
  obtain ⟨x, y⟩ := runFiles_stops M res next "scripts/tutorials".toList "scripts/tutorials/".toList a b p e (fun f hf => join_tutorials f (m1 f hf)) ha he w
  have e1 : runAllScripts M "scripts/tutorials".toList w = runFiles M "scripts/tutorials".toList (a ++ p :: b) w := by
    unfold runAllScripts; rw [h1]; dsimp only; rw [filter_isPy, hl]
  have em : main M w = ((runFiles M "scripts/tutorials".toList (a ++ p :: b) w).1, .error e) := by
    unfold main
    rw [e1]
    generalize runFiles M "scripts/tutorials".toList (a ++ p :: b) w = r at x ⊢
    obtain ⟨l, o⟩ := r
    dsimp only at x
    subst x
    rfl
  rw [em]
  exact ⟨rfl, rfl, y⟩

end

/-- **C123** expected but false: the runner fails if one of the scripts fails, or at least reports it under `Errors in`. -/
def C123_failure_statement : Prop := ∀ (W : Type) (M : Machine W) (res : W → PyStr → Result) (next : W → PyStr → W) (w : W) (l : List PyStr),
  (∀ w p, M.python w p = .ok (res w p, next w p)) → (∀ w d, M.listdir w d = .ok l) → (∀ f ∈ l, f.head? ≠ some '/') → (∃ f ∈ l, (∃ g, f = g ++ ".py".toList) ∧ ∀ w p, (res w p).code ≠ 0) →
  exitCode (main M w) ≠ 0 ∨ errorTexts (main M w).1 ≠ []

/-- **C123** (finding) the return codes are never looked at: with the same outputs, the runner prints the same and its exit code is 0, whatever they are. A script that writes to the standard error and
succeeds is listed under `Errors in`, one that fails silently is not. -/
theorem C123_failure_false : ¬ C123_failure_statement := by
  intro H
  have h := H Unit ⟨fun _ _ => .ok ["a.py".toList], fun _ _ => .ok (⟨[], [], 1⟩, ())⟩ (fun _ _ => ⟨[], [], 1⟩) (fun _ _ => ()) () ["a.py".toList] (fun _ _ => rfl) (fun _ _ => rfl)
    (by intro f hf; rw [List.mem_singleton.mp hf]; decide) ⟨_, List.mem_singleton_self _, ⟨"a".toList, by decide⟩, fun _ _ => by decide⟩
  rcases h with h | h
  · exact h (by decide)
  · exact h (by decide)

/-- **C123** the return codes change nothing. -/
theorem C123_codes {W : Type} (L : W → PyStr → Except String (List PyStr)) (res : W → PyStr → Result) (next : W → PyStr → W) (code : W → PyStr → Int) (w : W) :
    main ⟨L, fun w p => .ok ({ res w p with code := code w p }, next w p)⟩ w = main ⟨L, fun w p => .ok (res w p, next w p)⟩ w := by
  have e : ∀ dir files w, runFiles ⟨L, fun w p => .ok ({ res w p with code := code w p }, next w p)⟩ dir files w = runFiles ⟨L, fun w p => .ok (res w p, next w p)⟩ dir files w := by
    intro dir files
    induction files with
    | nil => intro w; rfl
    | cons f files ih => intro w; simp only [runFiles, ih]
  unfold main runAllScripts
  simp only [e]

/-- Cases: the scripts of the repository. -/
example := C123_all_run (W := Nat) ⟨fun _ _ => .ok ["polar_poisson.py".toList, "data".toList], fun w _ => .ok (⟨[], [], 0⟩, w + 1)⟩ (fun _ _ => ⟨[], [], 0⟩) (fun w _ => w + 1) (w := 0) (fun _ _ => rfl) rfl
  (by decide) rfl (by decide)
example : "polar_poisson.py".toList ∈ pyNames ["polar_poisson.py".toList, "data".toList] := by
  rw [← filter_isPy]; decide
example := C123_stops (W := Nat) ⟨fun _ _ => .ok ["polar_poisson.py".toList, "data".toList], fun w _ => .error "FileNotFoundError"⟩ (fun _ _ => ⟨[], [], 0⟩) (fun w _ => w + 1) (w := 0)
  [] [] "polar_poisson.py".toList "FileNotFoundError" rfl (by decide) (by rw [← filter_isPy]; decide) (by simp) (fun _ => rfl)

end Mrx.Props
