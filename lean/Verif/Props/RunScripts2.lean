import Verif.Props.RunScripts

/-!
# C123 The batch runner: the whole text, and what stops the second directory

-/

set_option linter.unusedSectionVars false
set_option linter.unusedVariables false

namespace Mrx.Props
open Mrx IO RunScripts

variable {W : Type} (M : Machine W) (res : W → PyStr → Result) (next : W → PyStr → W)

/-- What is printed about one script: its path, its output, what it wrote to the standard error if it wrote something, the time. -/
def scriptText (name path : PyStr) (r : Result) : List Line :=
  Line.running path :: Line.output name r.out :: (if r.err = [] then [Line.time] else [Line.errors name r.err, Line.time])

theorem runFiles_text (hpy : ∀ w p, M.python w p = .ok (res w p, next w p)) (dir pre : PyStr) (files : List PyStr) (hj : ∀ f ∈ files, joinPath dir f = pre ++ f) (w : W) :
    (runFiles M dir files w).1 = (files.zip (resultsOf res next (files.map (pre ++ ·)) w)).flatMap fun e => scriptText e.1 (pre ++ e.1) e.2 := by
  induction files generalizing w with
  | nil => rfl
  | cons f files ih =>
    have h := ih (fun g hg => hj g (List.mem_cons_of_mem _ hg)) (next w (pre ++ f))
    unfold runFiles
    dsimp only
    rw [hj f List.mem_cons_self, hpy]
    dsimp only
    rw [h]
    by_cases he : (res w (pre ++ f)).err = [] <;> simp [he, resultsOf, scriptText]

variable {w : W} {l1 l2 : List PyStr}

theorem tutorials_run (hpy : ∀ w p, M.python w p = .ok (res w p, next w p)) (h1 : M.listdir w "scripts/tutorials".toList = .ok l1) (s1 : ∀ f ∈ l1, f.head? ≠ some '/') :
    (runAllScripts M "scripts/tutorials".toList w) = ((runFiles M "scripts/tutorials".toList (pyNames l1) w).1, .ok (((pyNames l1).map ("scripts/tutorials/".toList ++ ·)).foldl next w)) := by
  have m1 : ∀ f ∈ pyNames l1, f.head? ≠ some '/' := fun f hf => s1 f (List.mem_of_mem_filter hf)
  obtain ⟨a1, -⟩ := runFiles_ok M res next hpy "scripts/tutorials".toList "scripts/tutorials/".toList (pyNames l1) (fun f hf => join_tutorials f (m1 f hf)) w
  unfold runAllScripts
  rw [h1]
  dsimp only
  rw [filter_isPy, ← a1]

theorem main_after_tutorials (hpy : ∀ w p, M.python w p = .ok (res w p, next w p)) (h1 : M.listdir w "scripts/tutorials".toList = .ok l1) (s1 : ∀ f ∈ l1, f.head? ≠ some '/') :
    main M w = ((runFiles M "scripts/tutorials".toList (pyNames l1) w).1 ++
        (runAllScripts M "scripts/interactive/".toList (((pyNames l1).map ("scripts/tutorials/".toList ++ ·)).foldl next w)).1,
      (runAllScripts M "scripts/interactive/".toList (((pyNames l1).map ("scripts/tutorials/".toList ++ ·)).foldl next w)).2) := by
  unfold main
  rw [tutorials_run M res next hpy h1 s1]

/-- **C123** everything that is printed: the reports of the scripts one after the other, none mixed with another, each with its path first, then its output, then what it wrote to the standard error
(if anything), then the time. -/
theorem C123_text (hpy : ∀ w p, M.python w p = .ok (res w p, next w p)) (h1 : M.listdir w "scripts/tutorials".toList = .ok l1) (s1 : ∀ f ∈ l1, f.head? ≠ some '/')
    (h2 : M.listdir (((pyNames l1).map ("scripts/tutorials/".toList ++ ·)).foldl next w) "scripts/interactive/".toList = .ok l2) (s2 : ∀ f ∈ l2, f.head? ≠ some '/') :
    let w1 := ((pyNames l1).map ("scripts/tutorials/".toList ++ ·)).foldl next w
    (main M w).1 =
      ((pyNames l1).zip (resultsOf res next ((pyNames l1).map ("scripts/tutorials/".toList ++ ·)) w)).flatMap (fun e => scriptText e.1 ("scripts/tutorials/".toList ++ e.1) e.2) ++
      ((pyNames l2).zip (resultsOf res next ((pyNames l2).map ("scripts/interactive/".toList ++ ·)) w1)).flatMap (fun e => scriptText e.1 ("scripts/interactive/".toList ++ e.1) e.2) := by
  intro w1
  have m1 : ∀ f ∈ pyNames l1, f.head? ≠ some '/' := fun f hf => s1 f (List.mem_of_mem_filter hf)
  have m2 : ∀ f ∈ pyNames l2, f.head? ≠ some '/' := fun f hf => s2 f (List.mem_of_mem_filter hf)
  rw [main_after_tutorials M res next hpy h1 s1]
  dsimp only
  have e2 : runAllScripts M "scripts/interactive/".toList w1 = runFiles M "scripts/interactive/".toList (pyNames l2) w1 := by
    unfold runAllScripts; rw [h2]; dsimp only; rw [filter_isPy]
  rw [e2, runFiles_text M res next hpy _ _ _ (fun f hf => join_tutorials f (m1 f hf)), runFiles_text M res next hpy _ _ _ (fun f hf => join_interactive f (m2 f hf))]

/-- **C123** if `scripts/tutorials` cannot be listed, nothing is run, nothing is printed, and the exit code is 1. -/
theorem C123_no_tutorials (e : String) (h : M.listdir w "scripts/tutorials".toList = .error e) : (main M w).1 = [] ∧ (main M w).2 = .error e ∧ exitCode (main M w) = 1 := by
  have : main M w = ([], .error e) := by
    unfold main runAllScripts; rw [h]
  rw [this]
  exact ⟨rfl, rfl, rfl⟩

/-- **C123** if `scripts/interactive/` cannot be listed after the tutorials, the tutorials have all been run and reported, and the exit code is 1. -/
theorem C123_no_interactive (e : String) (hpy : ∀ w p, M.python w p = .ok (res w p, next w p)) (h1 : M.listdir w "scripts/tutorials".toList = .ok l1) (s1 : ∀ f ∈ l1, f.head? ≠ some '/')
    (h2 : M.listdir (((pyNames l1).map ("scripts/tutorials/".toList ++ ·)).foldl next w) "scripts/interactive/".toList = .error e) :
    (main M w).1 = ((pyNames l1).zip (resultsOf res next ((pyNames l1).map ("scripts/tutorials/".toList ++ ·)) w)).flatMap (fun e => scriptText e.1 ("scripts/tutorials/".toList ++ e.1) e.2) ∧
    (main M w).2 = .error e ∧ exitCode (main M w) = 1 := by
  have m1 : ∀ f ∈ pyNames l1, f.head? ≠ some '/' := fun f hf => s1 f (List.mem_of_mem_filter hf)
  have e2 : runAllScripts M "scripts/interactive/".toList (((pyNames l1).map ("scripts/tutorials/".toList ++ ·)).foldl next w) = ([], .error e) := by
    unfold runAllScripts; rw [h2]
  rw [main_after_tutorials M res next hpy h1 s1, e2]
  refine ⟨?_, rfl, rfl⟩
  rw [List.append_nil, runFiles_text M res next hpy _ _ _ (fun f hf => join_tutorials f (m1 f hf))]

/-- **C123** the exit code is 0 exactly if both directories could be listed and every one of their scripts could be started: on a computer on which Python runs whatever it is given, exactly if both could
be listed. -/
theorem C123_exit (hpy : ∀ w p, M.python w p = .ok (res w p, next w p)) (hs : ∀ w d l, M.listdir w d = .ok l → ∀ f ∈ l, f.head? ≠ some '/') :
    exitCode (main M w) = 0 ↔ ∃ l1 l2, M.listdir w "scripts/tutorials".toList = .ok l1 ∧
      M.listdir (((pyNames l1).map ("scripts/tutorials/".toList ++ ·)).foldl next w) "scripts/interactive/".toList = .ok l2 := by
  constructor
  · intro h
    cases h1 : M.listdir w "scripts/tutorials".toList with
    | error e => rw [(C123_no_tutorials M e h1).2.2] at h; exact absurd h (by decide)
    | ok l1 =>
      cases h2 : M.listdir (((pyNames l1).map ("scripts/tutorials/".toList ++ ·)).foldl next w) "scripts/interactive/".toList with
      | error e => rw [(C123_no_interactive M res next e hpy h1 (hs _ _ _ h1) h2).2.2] at h; exact absurd h (by decide)
      | ok l2 => exact ⟨l1, l2, rfl, h2⟩
  · rintro ⟨l1, l2, h1, h2⟩
    have h := (C123_all_run M res next hpy h1 (hs _ _ _ h1) h2 (hs _ _ _ h2)).1
    unfold exitCode
    rw [h]

/-- Cases: a tutorial and no second directory; both directories. -/
example := C123_no_interactive (W := Nat) ⟨fun w d => if d = "scripts/tutorials".toList then .ok ["polar_poisson.py".toList] else .error "FileNotFoundError", fun w _ => .ok (⟨[], [], 0⟩, w + 1)⟩
  (fun _ _ => ⟨[], [], 0⟩) (fun w _ => w + 1) (w := 0) "FileNotFoundError" (l1 := ["polar_poisson.py".toList]) (fun _ _ => rfl) rfl (by decide) rfl
example := (C123_exit (W := Nat) ⟨fun _ _ => .ok ["polar_poisson.py".toList, "data".toList], fun w _ => .ok (⟨[], [], 0⟩, w + 1)⟩ (fun _ _ => ⟨[], [], 0⟩) (fun w _ => w + 1) (w := 0) (fun _ _ => rfl)
  (by intro w d l h; cases h; decide)).mpr ⟨_, _, rfl, rfl⟩
example := C123_text (W := Nat) ⟨fun _ _ => .ok ["polar_poisson.py".toList, "data".toList], fun w _ => .ok (⟨[], [], 0⟩, w + 1)⟩ (fun _ _ => ⟨[], [], 0⟩) (fun w _ => w + 1) (w := 0) (fun _ _ => rfl) rfl
  (by decide) rfl (by decide)

end Mrx.Props
