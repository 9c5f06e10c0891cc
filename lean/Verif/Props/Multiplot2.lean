import Verif.Props.Multiplot

/-!
# C114: the numbers and curves of the sweep figures

The values of the configurations by which the figures are coloured, and the ordinates of the curves, as numbers.
-/

set_option linter.unusedSectionVars false
set_option linter.unusedVariables false

namespace Mrx.Props
open Mrx IO Multiplot

/-- The attribute is the finite number `x`, stored as an integer or as a float. -/
def isNumber (a : Attr) (x : ℝ) : Prop := a = .num (.fin x) ∨ ∃ n : Int, a = .int n ∧ x = n

theorem toFV_iff (a : Attr) (x : ℝ) : a.toFV? = some (.fin x) ↔ isNumber a x := by
  unfold isNumber Attr.toFV?
  cases a with
  | int n => simp [eq_comm]
  | num y => simp
  | str s => simp
  | arr xs => simp

/-- **C114** the values by which the script colours and styles the curves are those of the configurations (whose keys are different, as in every file): the entry is a finite number, integer or float. -/
theorem C114_values (c : PyDict Attr) (hc : (c.map (·.1)).Nodup) (k : PyStr) (x : ℝ) : (numbers c).get? k = some x ↔ ∃ a, c.get? k = some a ∧ isNumber a x := by
  induction c with
  | nil => simp [numbers, PyDict.get?]
  | cons e rest ih =>
    obtain ⟨k', v⟩ := e
    rw [List.map_cons, List.nodup_cons] at hc
    have ih := ih hc.2
    by_cases hk : k = k'
    · subst hk
      have hnone : PyDict.get? rest k = none := by
        unfold PyDict.get?
        rw [List.lookup_eq_none_iff]
        rintro ⟨k2, v2⟩ hp
        have : k2 ≠ k := fun e => hc.1 (List.mem_map.mpr ⟨_, hp, e⟩)
        simpa using fun h => this h.symm
      rw [PyDict.get?_cons, if_pos rfl]
      have e : (∃ a, some v = some a ∧ isNumber a x) ↔ v.toFV? = some (.fin x) := by
        rw [toFV_iff]
        constructor
        · rintro ⟨a, h, h2⟩; rw [Option.some.inj h]; exact h2
        · exact fun h => ⟨v, rfl, h⟩
      rw [e]
      unfold numbers
      rw [List.filterMap_cons]
      split
      · rename_i hb
        dsimp only at hb
        have n := numbers_none hnone
        unfold numbers at n
        rw [n]
        split at hb
        · cases hb
        · rename_i hx
          exact ⟨fun h => (nomatch h), fun h => absurd h (hx x)⟩
      · rename_i b hb
        dsimp only at hb
        split at hb
        · rename_i y hy
          obtain rfl := Option.some.inj hb
          rw [PyDict.get?_cons, if_pos rfl, hy]
          simp
        · cases hb
    · rw [PyDict.get?_cons, if_neg hk, ← ih]
      unfold numbers
      rw [List.filterMap_cons]
      split
      · rfl
      · rename_i b hb
        dsimp only at hb
        split at hb
        · obtain rfl := Option.some.inj hb
          rw [PyDict.get?_cons, if_neg hk]
        · cases hb

/-- **C114** the curves of finite traces, as numbers: the energy figures show absolute values, the helicity figures the absolute differences to the first run, the other four the trace itself. -/
theorem C114_ordinates (runs : List Run) (first r : Run) (rest : List Run) (hr : runs = first :: rest) (xs ys : List ℝ) (hx : r.force = xs.map .fin) (hy : first.force = ys.map .fin) :
    shown ("energy_diff_trace", false) runs r = xs.map (fun x => .fin |x|) ∧
    shown ("helicity_trace", true) runs r = List.zipWith (fun x y => .fin |x - y|) xs ys ∧
    ∀ q ∈ ["force_trace", "picard_errors", "picard_iterations", "timesteps"], shown (q, false) runs r = xs.map .fin := by
  subst hr
  refine ⟨?_, ?_, ?_⟩
  · simp [shown, hx, absFV, absDiff]
  · simp only [shown, if_true, List.map_cons, List.headD_cons, hx, hy, List.zipWith_map]
    rfl
  · intro q hq
    have : q ≠ "energy_diff_trace" := by rintro rfl; revert hq; decide
    simp [shown, this, hx]

example := C114_values [("n_r".toList, .int 6), ("dt".toList, .num (.fin (1 / 10)))] (by decide) "n_r".toList 6
example : (numbers [("n_r".toList, .int 6)]).get? "n_r".toList = some 6 := (C114_values _ (by decide) _ _).mpr ⟨.int 6, rfl, Or.inr ⟨6, rfl, by norm_num⟩⟩

end Mrx.Props
