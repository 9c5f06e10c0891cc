import Verif.Props.Studies
import Verif.Props.OnePoint
import Verif.Model.ToroidScript
import Std.Data.String.ToInt

/-!
# C111: `scripts/interactive/toroid_poisson.py`

Which command lines write a file, what is in it, that files of different parameters are different, that the order of runs does not matter, and what the three numbers are.
-/

set_option linter.unusedSectionVars false
set_option linter.unusedVariables false

namespace Mrx.Props
open Mrx Spec Matrix DeRham Real ToroidScript

section
variable {parse : String → Option Int} {fmt : ℝ → String} {getErr : Int → Int → Except String (ℝ × ℝ × ℝ)}

/-- The arguments are good: there are two or more, the first two are integers, and `get_err` returns the three numbers. -/
def GoodArgs (parse : String → Option Int) (getErr : Int → Int → Except String (ℝ × ℝ × ℝ)) (argv : List String) (n p : Int) (error cond sparsity : ℝ) : Prop :=
  ∃ script a b rest, argv = script :: a :: b :: rest ∧ parse a = some n ∧ parse b = some p ∧ getErr n p = .ok (error, cond, sparsity)

theorem main_cases (argv : List String) (fs : Files) :
    (∃ n p error cond sparsity, GoodArgs parse getErr argv n p error cond sparsity ∧ main parse fmt getErr argv fs =
      (.done, writeFile fs (outPath n p) ["error " ++ fmt error, "sparsity " ++ fmt sparsity, "cond " ++ fmt cond])) ∨
    ((∃ script a b rest n p e, argv = script :: a :: b :: rest ∧ parse a = some n ∧ parse b = some p ∧ getErr n p = .error e ∧ main parse fmt getErr argv fs = (.raised e, fs)) ∨
      ((argv.length < 3 ∨ ∃ script a b rest, argv = script :: a :: b :: rest ∧ (parse a = none ∨ parse b = none)) ∧ main parse fmt getErr argv fs = (.code1, fs))) := by
  match argv with
  | [] => exact Or.inr (Or.inr ⟨Or.inl (by simp), by simp [main]⟩)
  | [_] => exact Or.inr (Or.inr ⟨Or.inl (by simp), by simp [main]⟩)
  | [_, _] => exact Or.inr (Or.inr ⟨Or.inl (by simp), by simp [main]⟩)
  | s :: a :: b :: rest =>
    have hl : ¬ (s :: a :: b :: rest).length < 3 := by simp
    have g1 : (s :: a :: b :: rest).getD 1 "" = a := rfl
    have g2 : (s :: a :: b :: rest).getD 2 "" = b := rfl
    unfold main
    rw [if_neg hl, g1, g2]
    cases ha : parse a with
    | none => exact Or.inr (Or.inr ⟨Or.inr ⟨s, a, b, rest, rfl, Or.inl ha⟩, rfl⟩)
    | some n =>
      cases hb : parse b with
      | none => exact Or.inr (Or.inr ⟨Or.inr ⟨s, a, b, rest, rfl, Or.inr hb⟩, rfl⟩)
      | some p =>
        cases he : getErr n p with
        | error e => exact Or.inr (Or.inl ⟨s, a, b, rest, n, p, e, rfl, ha, hb, he, by simp only [he]⟩)
        | ok r =>
          obtain ⟨error, cond, sparsity⟩ := r
          exact Or.inl ⟨n, p, error, cond, sparsity, ⟨s, a, b, rest, rfl, ha, hb, he⟩, by simp only [he]⟩

theorem GoodArgs.unique {argv : List String} {n p n' p' : Int} {x y z x' y' z' : ℝ} (h : GoodArgs parse getErr argv n p x y z) (h' : GoodArgs parse getErr argv n' p' x' y' z') :
    n = n' ∧ p = p' ∧ x = x' ∧ y = y' ∧ z = z' := by
  obtain ⟨s, a, b, rest, rfl, ha, hb, he⟩ := h
  obtain ⟨s', a', b', rest', e, ha', hb', he'⟩ := h'
  simp only [List.cons.injEq] at e
  obtain ⟨rfl, rfl, rfl, rfl⟩ := e
  have hn := Option.some.inj (ha.symm.trans ha')
  have hp := Option.some.inj (hb.symm.trans hb')
  subst hn hp
  have := Except.ok.inj (he.symm.trans he')
  simp only [Prod.mk.injEq] at this
  exact ⟨rfl, rfl, this⟩

/-- **C111** the script ends normally exactly when there are two arguments or more, the first two are integers and `get_err` returns. Then the file of the two numbers holds three lines, error, sparsity and
condition number in this order, whatever it held before, and no other file changes. -/
theorem C111_writes (argv : List String) (fs : Files) :
    ((main parse fmt getErr argv fs).1 = .done ↔ ∃ n p error cond sparsity, GoodArgs parse getErr argv n p error cond sparsity) ∧
    ∀ n p error cond sparsity, GoodArgs parse getErr argv n p error cond sparsity → ∀ path, (main parse fmt getErr argv fs).2 path =
      if path = outPath n p then some ["error " ++ fmt error, "sparsity " ++ fmt sparsity, "cond " ++ fmt cond] else fs path := by
  rcases main_cases (parse := parse) (fmt := fmt) (getErr := getErr) argv fs with ⟨n, p, x, y, z, hg, hm⟩ | ⟨s, a, b, rest, n, p, e, rfl, ha, hb, he, hm⟩ | ⟨hbad, hm⟩
  · rw [hm]
    refine ⟨⟨fun _ => ⟨n, p, x, y, z, hg⟩, fun _ => rfl⟩, fun n' p' x' y' z' hg' path => ?_⟩
    obtain ⟨rfl, rfl, rfl, rfl, rfl⟩ := hg.unique hg'
    rfl
  · have no : ∀ n' p' x' y' z', ¬ GoodArgs parse getErr (s :: a :: b :: rest) n' p' x' y' z' := by
      rintro n' p' x' y' z' ⟨s', a', b', rest', e', ha', hb', he'⟩
      simp only [List.cons.injEq] at e'
      obtain ⟨rfl, rfl, rfl, rfl⟩ := e'
      have hn := Option.some.inj (ha.symm.trans ha')
      have hp := Option.some.inj (hb.symm.trans hb')
      subst hn hp
      cases he.symm.trans he'
    rw [hm]
    exact ⟨⟨fun h => (by simp at h), fun ⟨n', p', x', y', z', h⟩ => absurd h (no _ _ _ _ _)⟩, fun n' p' x' y' z' h => absurd h (no _ _ _ _ _)⟩
  · have no : ∀ n' p' x' y' z', ¬ GoodArgs parse getErr argv n' p' x' y' z' := by
      rintro n' p' x' y' z' ⟨s', a', b', rest', rfl, ha', hb', he'⟩
      rcases hbad with h | ⟨s, a, b, rest, e', h⟩
      · simp at h; omega
      · simp only [List.cons.injEq] at e'
        obtain ⟨rfl, rfl, rfl, rfl⟩ := e'
        rcases h with h | h
        · rw [h] at ha'; cases ha'
        · rw [h] at hb'; cases hb'
    rw [hm]
    exact ⟨⟨fun h => (by simp at h), fun ⟨n', p', x', y', z', h⟩ => absurd h (no _ _ _ _ _)⟩, fun n' p' x' y' z' h => absurd h (no _ _ _ _ _)⟩

/-- Case: arguments as in the CI. -/
example (parse : String → Option Int) (h1 : parse "8" = some 8) (h2 : parse "3" = some 3) : GoodArgs parse (fun n p => .ok ((n : ℝ), (p : ℝ), 1 / 2)) ["s.py", "8", "3", "x"] 8 3 8 3 (1 / 2) :=
  ⟨_, _, _, _, rfl, h1, h2, by norm_num⟩

/-- **C111** every other end leaves all files alone. Too few arguments and arguments that are not integers end with exit code 1 (the docstring promises `ValueError`); the only exceptions that leave the script are those
of `get_err`. -/
theorem C111_other_ends (argv : List String) (fs : Files) :
    ((main parse fmt getErr argv fs).1 ≠ .done → (main parse fmt getErr argv fs).2 = fs) ∧
    ((main parse fmt getErr argv fs).1 = .code1 ↔ argv.length < 3 ∨ ∃ script a b rest, argv = script :: a :: b :: rest ∧ (parse a = none ∨ parse b = none)) ∧
    ∀ e, (main parse fmt getErr argv fs).1 = .raised e ↔ ∃ script a b rest n p, argv = script :: a :: b :: rest ∧ parse a = some n ∧ parse b = some p ∧ getErr n p = .error e := by
  have excl : ∀ {s a b : String} {rest : List String} {n p : Int}, argv = s :: a :: b :: rest → parse a = some n → parse b = some p →
      ¬ (argv.length < 3 ∨ ∃ script a b rest, argv = script :: a :: b :: rest ∧ (parse a = none ∨ parse b = none)) := by
    rintro s a b rest n p rfl ha hb (h | ⟨s', a', b', rest', e', h⟩)
    · simp at h; omega
    · simp only [List.cons.injEq] at e'
      obtain ⟨rfl, rfl, rfl, rfl⟩ := e'
      rcases h with h | h
      · rw [h] at ha; cases ha
      · rw [h] at hb; cases hb
  have det : ∀ {s a b s' a' b' : String} {rest rest' : List String} {n p n' p' : Int} , argv = s :: a :: b :: rest → parse a = some n → parse b = some p →
      argv = s' :: a' :: b' :: rest' → parse a' = some n' → parse b' = some p' → n = n' ∧ p = p' := by
    rintro s a b s' a' b' rest rest' n p n' p' rfl ha hb e' ha' hb'
    simp only [List.cons.injEq] at e'
    obtain ⟨rfl, rfl, rfl, rfl⟩ := e'
    exact ⟨Option.some.inj (ha.symm.trans ha'), Option.some.inj (hb.symm.trans hb')⟩
  rcases main_cases (parse := parse) (fmt := fmt) (getErr := getErr) argv fs with ⟨n, p, x, y, z, ⟨s, a, b, rest, e0, ha, hb, he⟩, hm⟩ | ⟨s, a, b, rest, n, p, e, e0, ha, hb, he, hm⟩ | ⟨hbad, hm⟩
  · rw [hm]
    refine ⟨fun h => absurd rfl h, ⟨fun h => (by simp at h), fun h => absurd h (excl e0 ha hb)⟩, fun e => ⟨fun h => (by simp at h), ?_⟩⟩
    rintro ⟨s', a', b', rest', n', p', e1, ha', hb', he'⟩
    obtain ⟨rfl, rfl⟩ := det e0 ha hb e1 ha' hb'
    cases he.symm.trans he'
  · rw [hm]
    refine ⟨fun h => rfl, ⟨fun h => (by simp at h), fun h => absurd h (excl e0 ha hb)⟩, fun e => ⟨fun h => ?_, ?_⟩⟩
    · simp only [Exit.raised.injEq] at h
      subst h
      exact ⟨s, a, b, rest, n, p, e0, ha, hb, he⟩
    · rintro ⟨s', a', b', rest', n', p', e1, ha', hb', he'⟩
      obtain ⟨rfl, rfl⟩ := det e0 ha hb e1 ha' hb'
      simp only [Exit.raised.injEq]
      exact Except.error.inj (he.symm.trans he')
  · rw [hm]
    refine ⟨fun h => rfl, ⟨fun h => hbad, fun h => rfl⟩, fun e => ⟨fun h => (by simp at h), ?_⟩⟩
    rintro ⟨s', a', b', rest', n', p', e1, ha', hb', he'⟩
    exact absurd hbad (excl e1 ha' hb')

theorem underscore_notin_repr (n : Int) : '_' ∉ n.repr.toList := by
  cases n with
  | ofNat m =>
    show '_' ∉ (Nat.repr m).toList
    rw [Nat.toList_repr]
    exact Nat.underscore_not_in_toDigits
  | negSucc m =>
    show '_' ∉ ("-" ++ Nat.repr (Nat.succ m)).toList
    rw [String.toList_append, Nat.toList_repr]
    simp

theorem split_at {a b a' b' : List Char} {c : Char} (h : c ∉ a) (h' : c ∉ a') (e : a ++ c :: b = a' ++ c :: b') : a = a' ∧ b = b' := by
  induction a generalizing a' with
  | nil =>
    cases a' with
    | nil => exact ⟨rfl, by simpa using e⟩
    | cons d t => simp only [List.nil_append, List.cons_append, List.cons.injEq] at e; exact absurd (by simp [e.1]) h'
  | cons d t ih =>
    cases a' with
    | nil => simp only [List.nil_append, List.cons_append, List.cons.injEq] at e; exact absurd (by simp [e.1]) h
    | cons d' t' =>
      simp only [List.cons_append, List.cons.injEq] at e
      obtain ⟨r1, r2⟩ := ih (fun m => h (by simp [m])) (fun m => h' (by simp [m])) e.2
      exact ⟨by rw [e.1, r1], r2⟩

/-- **C111** different parameters have different files: no run overwrites the result of other parameters. -/
theorem C111_path_injective {n p n' p' : Int} : outPath n p = outPath n' p' ↔ n = n' ∧ p = p' := by
  constructor
  · intro e
    have e1 := congrArg String.toList e
    unfold outPath at e1
    simp only [String.toList_append, List.append_assoc] at e1
    have e2 := List.append_cancel_left (List.append_cancel_left e1)
    have u : "_".toList = ['_'] := rfl
    rw [u] at e2
    simp only [List.cons_append, List.nil_append] at e2
    obtain ⟨a, b⟩ := split_at (underscore_notin_repr n) (underscore_notin_repr n') e2
    have c := List.append_cancel_right b
    exact ⟨Int.repr_injective (String.toList_inj.mp a), Int.repr_injective (String.toList_inj.mp c)⟩
  · rintro ⟨rfl, rfl⟩; rfl

/-- The file of the CI run. -/
example : outPath 8 3 = "script_outputs/toroid_poisson_8_3.txt" := by decide

/-- **C111** after any number of runs: the file of `(n, p)` holds the numbers of `(n, p)` if one of the runs had these arguments and ended normally; otherwise it is as before. All other files are as before. In particular the
order of the runs, and repetitions, do not matter. -/
theorem C111_runs (calls : List (List String)) (fs : Files) :
    (∀ argv ∈ calls, ∀ n p error cond sparsity, GoodArgs parse getErr argv n p error cond sparsity →
      runs parse fmt getErr calls fs (outPath n p) = some ["error " ++ fmt error, "sparsity " ++ fmt sparsity, "cond " ++ fmt cond]) ∧
    ∀ path, (∀ argv ∈ calls, ∀ n p error cond sparsity, GoodArgs parse getErr argv n p error cond sparsity → path ≠ outPath n p) → runs parse fmt getErr calls fs path = fs path := by
  have good : ∀ {argv argv' : List String} {n p x y z x' y' z'}, GoodArgs parse getErr argv n p x y z → GoodArgs parse getErr argv' n p x' y' z' → x = x' ∧ y = y' ∧ z = z' := by
    rintro argv argv' n p x y z x' y' z' ⟨_, _, _, _, _, _, _, he⟩ ⟨_, _, _, _, _, _, _, he'⟩
    have := Except.ok.inj (he.symm.trans he')
    simpa only [Prod.mk.injEq] using this
  have step : ∀ argv (fs : Files) path, (∀ n p error cond sparsity, GoodArgs parse getErr argv n p error cond sparsity → path ≠ outPath n p) → (main parse fmt getErr argv fs).2 path = fs path := by
    intro argv fs path h
    by_cases hd : (main parse fmt getErr argv fs).1 = .done
    · obtain ⟨n, p, x, y, z, hg⟩ := (C111_writes argv fs).1.mp hd
      rw [(C111_writes argv fs).2 n p x y z hg path, if_neg (h _ _ _ _ _ hg)]
    · rw [(C111_other_ends argv fs).1 hd]
  have rest : ∀ (calls : List (List String)) (fs : Files) path, (∀ argv ∈ calls, ∀ n p error cond sparsity, GoodArgs parse getErr argv n p error cond sparsity → path ≠ outPath n p) →
      runs parse fmt getErr calls fs path = fs path := by
    intro calls
    induction calls with
    | nil => intro fs path _; rfl
    | cons c cs ih =>
      intro fs path h
      show runs parse fmt getErr cs (main parse fmt getErr c fs).2 path = fs path
      rw [ih _ _ (fun a ha => h a (List.mem_cons_of_mem _ ha)), step c fs path (h c List.mem_cons_self)]
  refine ⟨?_, fun path h => rest calls fs path h⟩
  induction calls generalizing fs with
  | nil => intro argv h; simp at h
  | cons c cs ih =>
    intro argv hm n p x y z hg
    show runs parse fmt getErr cs (main parse fmt getErr c fs).2 (outPath n p) = _
    by_cases hex : ∃ a ∈ cs, ∃ x' y' z', GoodArgs parse getErr a n p x' y' z'
    · obtain ⟨a, ha, x', y', z', hg'⟩ := hex
      obtain ⟨rfl, rfl, rfl⟩ := good hg hg'
      exact ih _ a ha n p _ _ _ hg'
    · rcases List.mem_cons.mp hm with rfl | hm
      · rw [rest cs _ _ (fun a ha n' p' x' y' z' hg' e => ?_), (C111_writes argv fs).2 n p x y z hg, if_pos rfl]
        obtain ⟨rfl, rfl⟩ := C111_path_injective.mp e
        exact hex ⟨a, ha, x', y', z', hg'⟩
      · exact absurd ⟨argv, hm, x, y, z, hg⟩ hex

/-- **C111** two sequences of runs with the same command lines, in whatever order and however often, leave the same files. -/
theorem C111_order {calls calls' : List (List String)} (h : ∀ a, a ∈ calls ↔ a ∈ calls') (fs : Files) : runs parse fmt getErr calls fs = runs parse fmt getErr calls' fs := by
  funext path
  by_cases hex : ∃ argv ∈ calls, ∃ n p x y z, GoodArgs parse getErr argv n p x y z ∧ path = outPath n p
  · obtain ⟨argv, ha, n, p, x, y, z, hg, rfl⟩ := hex
    rw [(C111_runs calls fs).1 argv ha n p x y z hg, (C111_runs calls' fs).1 argv ((h _).mp ha) n p x y z hg]
  · have k : ∀ argv ∈ calls, ∀ n p x y z, GoodArgs parse getErr argv n p x y z → path ≠ outPath n p := fun a ha n p x y z hg e => hex ⟨a, ha, n, p, x, y, z, hg, e⟩
    rw [(C111_runs calls fs).2 path k, (C111_runs calls' fs).2 path (fun a ha => k a ((h a).mpr ha))]

end

/-- **C111** the sparsity is the fraction of the entries that exceed `1e-12` in modulus, a number between 0 and 1; it is 1 exactly when all entries do. -/
theorem C111_sparsity {m : Nat} (hm : 0 < m) (A : Matrix (Fin m) (Fin m) ℝ) :
    0 ≤ sparsity A ∧ sparsity A ≤ 1 ∧ (sparsity A = 1 ↔ ∀ i j, 1e-12 < |A i j|) ∧ (sparsity A = 0 ↔ ∀ i j, |A i j| ≤ 1e-12) := by
  have hc : (Finset.univ : Finset (Fin m × Fin m)).card = m * m := by simp
  have hpos : (0 : ℝ) < ((m * m : Nat) : ℝ) := by exact_mod_cast Nat.mul_pos hm hm
  have hle := Finset.card_filter_le (Finset.univ : Finset (Fin m × Fin m)) (fun ij => 1e-12 < |A ij.1 ij.2|)
  rw [hc] at hle
  unfold sparsity
  refine ⟨by positivity, ?_, ?_, ?_⟩
  · rw [div_le_one hpos]; exact_mod_cast hle
  · rw [div_eq_one_iff_eq hpos.ne', Nat.cast_inj, ← hc, Finset.card_filter_eq_iff]
    simp
  · rw [div_eq_zero_iff, or_iff_left hpos.ne', Nat.cast_eq_zero, Finset.card_filter_eq_zero_iff]
    simp

/-- A matrix with one entry of two. -/
example := C111_sparsity (m := 2) (by norm_num) !![1, 0; 0, 1]

/-- The sizes of the script: as many points as the degree, which takes degree 2 and two radial elements. -/
theorem script_sizes {n p : Nat} (hp : 2 ≤ p) (hp10 : p ≤ 10) (hn : 2 ≤ n - p) (hm : n - p ≤ 3000) :
    Sizes (n, n, n) (p, p, p) p ("clamped", "periodic", "periodic") true :=
  ⟨by omega, rfl, Or.inl ⟨rfl, by simp only; omega, by simp only; omega, by simp only; omega, Or.inr ⟨rfl, hp, by simp only; omega⟩⟩,
    Or.inr (Or.inl ⟨rfl, by simp only; omega, Or.inl (by simp only; omega), by simp only; omega, by simp only; omega, Or.inr ⟨rfl, hp⟩⟩),
    Or.inr (Or.inl ⟨rfl, by simp only; omega, Or.inl (by simp only; omega), by simp only; omega, by simp only; omega, Or.inr ⟨rfl, hp⟩⟩),
    fun _ => ⟨rfl, rfl, by decide, by simp only; omega, by simp only; omega⟩⟩

variable (cond : (m : Nat) → Matrix (Fin m) (Fin m) ℝ → ℝ)

/-- **C111** the numbers, for degrees 2 to 10 and 2 to 3000 radial elements: the system matrix is symmetric positive definite (so the solution exists and the condition number is finite), the computed function is the one discrete
weak solution of `-Δu = f`, and the first number is its relative L2 error against `1/4 (r² - r⁴) cos(2πζ)`. -/
theorem C111_numbers {n p : Nat} (hp : 2 ≤ p) (hp10 : p ≤ 10) (hn : 2 ≤ n - p) (hm : n - p ≤ 3000) :
    ∃ D, Admissible (n, n, n) (p, p, p) p ("clamped", "periodic", "periodic") (toroidMap (1 / 3) 1 1) true true D ∧ ∃ uh : Fin D.m0 → ℝ, ∃ e,
      (∀ w, (∀ v, l2Product (D.phys1 (D.strongGrad *ᵥ v)) (D.phys1 (D.strongGrad *ᵥ w)) D.S.Q (toroidMap (1 / 3) 1 1) =
        l2Product (D.phys0 v) (fun x _ => Manufactured.toroidF2 (1 / 3) 1 x) D.S.Q (toroidMap (1 / 3) 1 1)) ↔ w = uh) ∧
      IsRelativeError D (toroidMap (1 / 3) 1 1) (fun x => 1 / 4 * (x 0 ^ 2 - x 0 ^ 4) * cos (2 * π * x 2)) (D.phys0 uh) e ∧
      IsUnit (D.M0 * D.dd0).det ∧ ToroidScript.getErr cond n p = .ok (e, cond D.m0 (D.M0 * D.dd0), sparsity (D.M0 * D.dd0)) := by
  have hs := script_sizes hp hp10 hn hm
  obtain ⟨D, hb⟩ := hs.built (toroidMap (1 / 3) 1 1) true
  have hD := (C105_toroid_map (ε := 1 / 3) (κ := 1) (R0 := 1) (by norm_num) (by norm_num) (by norm_num) hs hb).1 (by
    have b := (innermost_bounds hs.m.1 hs.m.2 hs.q10).1
    have hm' : ((n - p : Nat) : ℝ) ≤ 3000 := by exact_mod_cast hm
    have hm1 : (1 : ℝ) ≤ ((n - p : Nat) : ℝ) := by exact_mod_cast hs.m.1
    have k : 1 / (77 * 3000 : ℝ) ≤ innermost (n - p) p := le_trans (by gcongr) b
    have : (2 * 3.141592) ^ 2 * (1 / 3) ^ 2 * 1 * (1 - 1 / 3) * (1 / (77 * 3000)) ≤ (2 * π) ^ 2 * (1 / 3) ^ 2 * 1 * (1 - 1 / 3) * innermost (n - p) p := by
      have := pi_gt_d6.le
      gcongr
    refine le_trans ?_ this
    norm_num)
  have hu : (fun x : V3 => 1 / 4 * (x 0 ^ 2 - x 0 ^ 4) * cos (2 * π * x 2)) = Manufactured.toroidU2 := by
    funext x; simp only [Manufactured.toroidU2]; ring
  rw [hu]
  refine ⟨D, hD, D.poisson0 (Studies.scalar (Manufactured.toroidF2 (1 / 3) 1)), _, fun w => ?_, isRelativeError hD ?_ _, ?_, by rw [ToroidScript.getErr, hb]⟩
  · exact (C78_poisson_weak_form hD ⟨rfl, by decide, by decide⟩ rfl (fun _ => le_refl _) (Studies.scalar (Manufactured.toroidF2 (1 / 3) 1)) w).symm
  · obtain ⟨x, hx, ez⟩ := zeta_point hs hb rfl
    obtain ⟨a, b⟩ := radial_inside hs hb x hx
    have hb := innermost_bounds (m := n) (q := p) (by omega) (by omega) (by omega)
    have hn3 : (3 : ℝ) ≤ (n : ℝ) := by exact_mod_cast (show 3 ≤ n by omega)
    have h6 : 1 / (2 * (n : ℝ)) ≤ 1 / (2 * 3) := by gcongr
    have hpos := toroidU_pos (x := toV3 x) a b (by
      show 0 ≤ x.2.2
      rw [ez]
      exact le_trans (by positivity) hb.1) (by
      show x.2.2 < 1 / 4
      rw [ez]
      linarith [hb.2])
    have e4 : Manufactured.toroidU2 (toV3 x) = 1 / 4 * Manufactured.toroidU (toV3 x) := by unfold Manufactured.toroidU2 Manufactured.toroidU; ring
    exact ⟨x, hx, by rw [e4]; positivity⟩
  · have m0 := (C31_mass_matrices_definite hD).1
    exact unit_mul m0 ((C73_laplacians_invertible_iff hD ⟨rfl, by decide, by decide⟩).1.mpr ⟨rfl, fun _ => le_refl _⟩)

example := C111_numbers cond (n := 8) (p := 3) (by norm_num) (by norm_num) (by norm_num) (by norm_num)

/-- **C111** a degree that is not less than the number of splines (degree 2 or more) raises; degree 1 with an even number of splines, 4 or more, does not, although the mass matrix that is inverted is singular. -/
theorem C111_outside (n p : Nat) :
    (2 ≤ p → n ≤ p → ∃ e, ToroidScript.getErr cond n p = .error e) ∧
    (p = 1 → Even n → 3 ≤ n → n ≤ 49975 → ∃ D, DeRham.mk? (n, n, n) (1, 1, 1) 1 ("clamped", "periodic", "periodic") (toroidMap (1 / 3) 1 1) true true = .ok D ∧ D.M0.det = 0 ∧ ∃ r,
      ToroidScript.getErr cond n p = .ok r) := by
  constructor
  · intro hp hn
    obtain ⟨e, h⟩ := not_built hp hn n n p p p "periodic" "periodic" (toroidMap (1 / 3) 1 1) true true
    exact ⟨e, by rw [ToroidScript.getErr, h]⟩
  · rintro rfl he hn hf
    obtain ⟨D, hD⟩ := linear_built n (by omega) (toroidMap (1 / 3) 1 1) true true
    exact ⟨D, hD, C31_even_one_point hD rfl rfl he (by simp only; omega) hf (fun _ => ⟨rfl, rfl, hn⟩) (polar_m0_pos hn hD), _, by rw [ToroidScript.getErr, hD]⟩

example := (C111_outside cond 8 1).2 rfl (by decide) (by norm_num) (by norm_num)
example := (C111_outside cond 4 5).1 (by norm_num) (by norm_num)

/-- Natural numbers to `get_err`, anything else to a function that is not modelled. -/
noncomputable def onIntegers (other : Int → Int → Except String (ℝ × ℝ × ℝ)) (n p : Int) : Except String (ℝ × ℝ × ℝ) :=
  match n, p with
  | .ofNat n, .ofNat p => ToroidScript.getErr cond n p
  | _, _ => other n p

/-- **C111** the continuous integration of the script: the first command line is refused (its arguments are not integers) and the second writes the file of 8 splines of degree 3, and no other. -/
theorem C111_ci {parse : String → Option Int} (h1 : parse "maxit=10" = none) (h2 : parse "8" = some 8) (h3 : parse "3" = some 3) (fmt : ℝ → String) (other : Int → Int → Except String (ℝ × ℝ × ℝ))
    (script : String) (fs : Files) :
    (main parse fmt (onIntegers cond other) [script, "maxit=10", "run_name=ci_test"] fs).1 = .code1 ∧
    ∃ e c s, ToroidScript.getErr cond 8 3 = .ok (e, c, s) ∧ firstOk parse fmt (onIntegers cond other) (ciCalls script) fs =
      (true, writeFile fs "script_outputs/toroid_poisson_8_3.txt" ["error " ++ fmt e, "sparsity " ++ fmt s, "cond " ++ fmt c]) := by
  obtain ⟨D, -, uh, e, -, -, -, hg⟩ := C111_numbers cond (n := 8) (p := 3) (by norm_num) (by norm_num) (by norm_num) (by norm_num)
  have f1 : main parse fmt (onIntegers cond other) [script, "maxit=10", "run_name=ci_test"] fs = (.code1, fs) := by
    simp [main, h1]
  have hg' : onIntegers cond other 8 3 = .ok (e, cond D.m0 (D.M0 * D.dd0), sparsity (D.M0 * D.dd0)) := hg
  refine ⟨by rw [f1], e, _, _, hg, ?_⟩
  unfold ciCalls firstOk
  rw [f1]
  simp only []
  unfold firstOk main
  simp [h2, h3, hg']
  rfl

end Mrx.Props
