import Verif.Model.Multiplot
import Verif.Props.PlotScripts
import Verif.Props.Sweep
import Mathlib.Data.Fintype.Pigeonhole

/-!
# C114: the figures of a parameter sweep
-/

set_option linter.unusedSectionVars false
set_option linter.unusedVariables false

namespace Mrx
namespace Props
open IO Multiplot

section
variable {α : Type} [LinearOrder α]

theorem distinct_nodup (vals : List α) : (distinct vals).Nodup := Finset.sort_nodup _ _

theorem mem_distinct {vals : List α} {v : α} : v ∈ distinct vals ↔ v ∈ vals := by
  unfold distinct
  rw [Finset.mem_sort, List.mem_toFinset]

theorem length_distinct (vals : List α) : (distinct vals).length = vals.toFinset.card := Finset.length_sort _

theorem column_ok {cfgs : List (PyDict α)} {p : PyStr} {vals : List α} : column cfgs p = .ok vals ↔ cfgs.map (fun c => c.get? p) = vals.map some := by
  induction cfgs generalizing vals with
  | nil =>
    unfold column
    constructor
    · intro h; obtain rfl := Except.ok.inj h; rfl
    · intro h
      cases vals with
      | nil => rfl
      | cons a l => cases h
  | cons c rest ih =>
    unfold column
    rw [List.map_cons]
    rcases hc : c.get? p with _ | v
    · constructor
      · intro h; cases h
      · intro h
        cases vals with
        | nil => cases h
        | cons a l => injection h with h1 h2; cases h1
    · rcases hr : column rest p with e | vs
      · constructor
        · intro h; cases h
        · intro h
          cases vals with
          | nil => cases h
          | cons a l =>
            injection h with h1 h2
            rw [ih.mpr h2] at hr
            cases hr
      · constructor
        · intro h
          obtain rfl := Except.ok.inj h
          rw [List.map_cons, ih.mp hr]
        · intro h
          cases vals with
          | nil => cases h
          | cons a l =>
            injection h with h1 h2
            rw [ih.mpr h2] at hr
            rw [← Except.ok.inj hr, Option.some.inj h1]

/-- The column exists exactly if the key is everywhere. -/
theorem column_iff {cfgs : List (PyDict α)} {p : PyStr} : (∃ vals, column cfgs p = .ok vals) ↔ ∀ c ∈ cfgs, (c.get? p).isSome := by
  constructor
  · rintro ⟨vals, h⟩ c hc
    rw [column_ok] at h
    have : c.get? p ∈ vals.map some := h ▸ List.mem_map_of_mem (f := fun c : PyDict α => c.get? p) hc
    obtain ⟨v, -, hv⟩ := List.mem_map.mp this
    rw [← hv]; rfl
  · intro h
    refine ⟨cfgs.filterMap fun c => c.get? p, column_ok.mpr ?_⟩
    induction cfgs with
    | nil => rfl
    | cons c rest ih =>
      obtain ⟨v, hv⟩ := Option.isSome_iff_exists.mp (h c List.mem_cons_self)
      rw [List.map_cons, hv, List.filterMap_cons_some (f := fun c : PyDict α => c.get? p) hv, List.map_cons, ih fun c' h' => h c' (List.mem_cons_of_mem _ h')]

theorem mem_column {cfgs : List (PyDict α)} {p : PyStr} {vals : List α} (h : column cfgs p = .ok vals) {v : α} : v ∈ vals ↔ ∃ c ∈ cfgs, c.get? p = some v := by
  rw [column_ok] at h
  have : some v ∈ vals.map some ↔ v ∈ vals := by simp
  rw [← this, ← h, List.mem_map]

theorem column_error {cfgs : List (PyDict α)} {p : PyStr} {e : String} (h : column cfgs p = .error e) : e = "KeyError" ∧ ∃ c ∈ cfgs, c.get? p = none := by
  induction cfgs with
  | nil => cases h
  | cons c rest ih =>
    unfold column at h
    rcases hc : c.get? p with _ | v
    · rw [hc] at h
      exact ⟨(Except.error.inj h).symm, c, List.mem_cons_self, hc⟩
    · rcases hr : column rest p with e' | vs
      · rw [hc, hr] at h
        obtain rfl := Except.error.inj h
        obtain ⟨h1, c', h2, h3⟩ := ih hr
        exact ⟨h1, c', List.mem_cons_of_mem _ h2, h3⟩
      · rw [hc, hr] at h; cases h

theorem drawAll_ok {colour style : PyDict α → Option Nat} {items : List (PyDict α × List FV × List ℝ)} {cs : List Curve} :
    drawAll colour style items = .ok cs ↔
      List.Forall₂ (fun e c => colour e.1 = some c.colour ∧ style e.1 = some c.style ∧ c.ys = e.2.1 ∧ c.xs = e.2.2 ∧ e.2.2.length = e.2.1.length) items cs := by
  induction items generalizing cs with
  | nil =>
    unfold drawAll
    constructor
    · intro h; obtain rfl := Except.ok.inj h; exact .nil
    · intro h; cases h; rfl
  | cons e rest ih =>
    obtain ⟨cfg, trace, iter⟩ := e
    unfold drawAll
    rcases hc : colour cfg with _ | c <;> rcases hs : style cfg with _ | s
    · exact ⟨fun h => (nomatch h), fun h => by cases h with | cons h1 _ => exact absurd (hc.symm.trans h1.1) (by simp)⟩
    · exact ⟨fun h => (nomatch h), fun h => by cases h with | cons h1 _ => exact absurd (hc.symm.trans h1.1) (by simp)⟩
    · exact ⟨fun h => (nomatch h), fun h => by cases h with | cons h1 _ => exact absurd (hs.symm.trans h1.2.1) (by simp)⟩
    · by_cases hl : iter.length = trace.length
      · simp only [if_pos hl]
        rcases hr : drawAll colour style rest with e | l
        · refine ⟨fun h => (nomatch h), fun h => ?_⟩
          cases h with | cons _ h2 => rw [ih.mpr h2] at hr; cases hr
        · constructor
          · intro h
            obtain rfl := Except.ok.inj h
            exact .cons ⟨hc, hs, rfl, rfl, hl⟩ (ih.mp hr)
          · intro h
            cases h with
            | cons h1 h2 =>
              rename_i c' l'
              obtain ⟨a1, a2, a3, a4, -⟩ := h1
              rw [ih.mpr h2] at hr
              obtain rfl := Except.ok.inj hr
              obtain ⟨c1, s1, x1, y1⟩ := c'
              dsimp only at a1 a2 a3 a4
              have e1 : c = c1 := Option.some.inj (hc.symm.trans a1)
              have e2 : s = s1 := Option.some.inj (hs.symm.trans a2)
              rw [e1, e2, a3, a4]
      · simp only [if_neg hl]
        exact ⟨fun h => (nomatch h), fun h => by cases h with | cons h1 _ => exact absurd h1.2.2.2.2 hl⟩

/-! ## The figure -/

/-- What the figure shows of the runs: for two parameters, one curve for each run, with the abscissae and ordinates as given, in the colour and with the line style that stand for its values
in the legend. -/
theorem plotTraces_two {cfgs : List (PyDict α)} {traces : List (List FV)} {iters : List (List ℝ)} {p q : PyStr} {extra : Option (List PyStr)} {fig : Figure α} :
    plotTraces cfgs traces iters [p, q] extra = .ok fig ↔
      ∃ ps qs l cs, column cfgs p = .ok ps ∧ column cfgs q = .ok qs ∧ extraLegend cfgs extra = .ok l ∧ (p = q → cfgs.zip (traces.zip iters) = []) ∧
        drawAll (fun c => (c.get? p).map (colourOf ps)) (fun c => (c.get? q).map (styleOf qs)) (cfgs.zip (traces.zip iters)) = .ok cs ∧
        fig = ⟨cs, colourLegend p ps ++ styleLegend q qs ++ l⟩ := by
  unfold plotTraces
  dsimp only
  rcases hp : column cfgs p with e | ps
  · simp
  rcases hq : column cfgs q with e | qs
  · simp
  rcases hl : extraLegend cfgs extra with e | l
  · simp
  dsimp only
  by_cases hc : p = q ∧ cfgs.zip (traces.zip iters) ≠ []
  · rw [if_pos hc]
    refine ⟨fun h => (nomatch h), ?_⟩
    rintro ⟨-, -, -, -, -, -, -, h, -⟩
    exact absurd (h hc.1) hc.2
  · rw [if_neg hc]
    rcases hd : drawAll (fun c => (c.get? p).map (colourOf ps)) (fun c => (c.get? q).map (styleOf qs)) (cfgs.zip (traces.zip iters)) with e | cs
    · refine ⟨fun h => (nomatch h), ?_⟩
      rintro ⟨ps', qs', l', cs', h1, h2, h3, h4, h5, -⟩
      obtain rfl := Except.ok.inj h1
      obtain rfl := Except.ok.inj h2
      rw [hd] at h5
      cases h5
    · constructor
      · intro h
        refine ⟨ps, qs, l, cs, rfl, rfl, rfl, fun h' => ?_, hd, (Except.ok.inj h).symm⟩
        by_contra h''
        exact hc ⟨h', h''⟩
      · rintro ⟨ps', qs', l', cs', h1, h2, h3, h4, h5, rfl⟩
        obtain rfl := Except.ok.inj h1
        obtain rfl := Except.ok.inj h2
        obtain rfl := Except.ok.inj h3
        rw [hd] at h5
        obtain rfl := Except.ok.inj h5
        rfl

theorem fixedLegend_ok {cfgs : List (PyDict α)} {keys : List PyStr} {l : List (LegendEntry α)} (h : fixedLegend cfgs keys = .ok l) :
    List.Forall₂ (fun k e => ∃ v, e = LegendEntry.fixed k v ∧ cfgs ≠ [] ∧ ∀ c ∈ cfgs, c.get? k = some v) keys l := by
  induction keys generalizing l with
  | nil => unfold fixedLegend at h; obtain rfl := Except.ok.inj h; exact .nil
  | cons k rest ih =>
    unfold fixedLegend at h
    rcases hc : column cfgs k with e | vals
    · rw [hc] at h; cases h
    rw [hc] at h
    dsimp only at h
    split at h
    · rename_i v hv
      rcases hr : fixedLegend cfgs rest with e | l'
      · rw [hr] at h; cases h
      rw [hr] at h
      obtain rfl := Except.ok.inj h
      refine .cons ⟨v, rfl, ?_, fun c hcc => ?_⟩ (ih hr)
      · rintro rfl
        have : v ∈ vals := mem_distinct.mp (hv ▸ List.mem_singleton_self v)
        obtain ⟨c, hc', -⟩ := (mem_column hc).mp this
        cases hc'
      · obtain ⟨w, hw⟩ := Option.isSome_iff_exists.mp (column_iff.mp ⟨vals, hc⟩ c hcc)
        have : w ∈ distinct vals := mem_distinct.mpr ((mem_column hc).mpr ⟨c, hcc, hw⟩)
        rw [hv, List.mem_singleton] at this
        rw [hw, this]
    · cases h

theorem fixedLegend_exists {cfgs : List (PyDict α)} {keys : List PyStr} (h : ∀ k ∈ keys, cfgs ≠ [] ∧ ∃ v, ∀ c ∈ cfgs, c.get? k = some v) : ∃ l, fixedLegend cfgs keys = .ok l := by
  induction keys with
  | nil => exact ⟨[], rfl⟩
  | cons k rest ih =>
    obtain ⟨hne, v, hv⟩ := h k List.mem_cons_self
    obtain ⟨l, hl⟩ := ih fun k' hk => h k' (List.mem_cons_of_mem _ hk)
    obtain ⟨vals, hc⟩ := (column_iff (cfgs := cfgs) (p := k)).mpr fun c hc => by rw [hv c hc]; rfl
    have hd : distinct vals = [v] := by
      have hm : ∀ w, w ∈ distinct vals ↔ w = v := by
        intro w
        rw [mem_distinct, mem_column hc]
        constructor
        · rintro ⟨c, h1, h2⟩
          rw [hv c h1] at h2
          exact (Option.some.inj h2).symm
        · rintro rfl
          obtain ⟨c, hc'⟩ := List.exists_mem_of_ne_nil _ hne
          exact ⟨c, hc', hv c hc'⟩
      have hn := distinct_nodup vals
      generalize distinct vals = d at hm hn
      match d, hm, hn with
      | [], hm, _ => exact absurd ((hm v).mpr rfl) (by simp)
      | [a], hm, _ => rw [(hm a).mp (by simp)]
      | a :: b :: r, hm, hn =>
        have e1 := (hm a).mp (by simp)
        have e2 := (hm b).mp (by simp)
        rw [e1, e2] at hn
        simp at hn
    unfold fixedLegend
    rw [hc]
    dsimp only
    rw [hd]
    dsimp only
    rw [hl]
    exact ⟨_, rfl⟩

/-- **C114** for which arguments `plot_traces` with two parameters draws a figure: every configuration has both keys; every fixed parameter has one and the same value in all configurations, of
which there is at least one; the parameters are different or there is nothing to draw; and each drawn trace has as many entries as its iterations. -/
theorem C114_domain (cfgs : List (PyDict α)) (traces : List (List FV)) (iters : List (List ℝ)) (p q : PyStr) (extra : List PyStr) :
    (∃ fig, plotTraces cfgs traces iters [p, q] (some extra) = .ok fig) ↔
      (∀ c ∈ cfgs, (c.get? p).isSome ∧ (c.get? q).isSome) ∧ (∀ k ∈ extra, cfgs ≠ [] ∧ ∃ v, ∀ c ∈ cfgs, c.get? k = some v) ∧
      (p = q → cfgs.zip (traces.zip iters) = []) ∧ ∀ e ∈ cfgs.zip (traces.zip iters), e.2.2.length = e.2.1.length := by
  constructor
  · rintro ⟨fig, h⟩
    obtain ⟨ps, qs, l, cs, h1, h2, h3, h4, h5, -⟩ := plotTraces_two.mp h
    refine ⟨fun c hc => ⟨column_iff.mp ⟨_, h1⟩ c hc, column_iff.mp ⟨_, h2⟩ c hc⟩, fun k hk => ?_, h4, fun e he => ?_⟩
    · unfold extraLegend at h3
      dsimp only at h3
      rcases hf : fixedLegend cfgs extra with e | l'
      · rw [hf] at h3; cases h3
      have := fixedLegend_ok hf
      obtain ⟨i, hi, rfl⟩ := List.getElem_of_mem hk
      have hi' : i < l'.length := this.length_eq ▸ hi
      obtain ⟨v, -, a, b⟩ := this.get hi hi'
      exact ⟨a, v, b⟩
    · have := drawAll_ok.mp h5
      obtain ⟨i, hi, rfl⟩ := List.getElem_of_mem he
      exact (this.get hi (this.length_eq ▸ hi)).2.2.2.2
  · rintro ⟨h1, h2, h3, h4⟩
    obtain ⟨ps, hp⟩ := column_iff.mpr fun c hc => (h1 c hc).1
    obtain ⟨qs, hq⟩ := column_iff.mpr fun c hc => (h1 c hc).2
    obtain ⟨l, hl⟩ := fixedLegend_exists h2
    have hd : ∃ cs, drawAll (fun c => (c.get? p).map (colourOf ps)) (fun c => (c.get? q).map (styleOf qs)) (cfgs.zip (traces.zip iters)) = .ok cs := by
      have hmem : ∀ e ∈ cfgs.zip (traces.zip iters), e.1 ∈ cfgs := fun e he => (List.of_mem_zip (a := e.1) (b := e.2) he).1
      generalize cfgs.zip (traces.zip iters) = items at h4 hmem
      clear h3
      induction items with
      | nil => exact ⟨[], rfl⟩
      | cons e rest ih =>
        obtain ⟨cfg, trace, iter⟩ := e
        obtain ⟨cs, hcs⟩ := ih (fun e he => h4 e (List.mem_cons_of_mem _ he)) fun e he => hmem e (List.mem_cons_of_mem _ he)
        obtain ⟨v, hv⟩ := Option.isSome_iff_exists.mp (h1 cfg (hmem _ List.mem_cons_self)).1
        obtain ⟨w, hw⟩ := Option.isSome_iff_exists.mp (h1 cfg (hmem _ List.mem_cons_self)).2
        refine ⟨⟨colourOf ps v, styleOf qs w, iter, trace⟩ :: cs, drawAll_ok.mpr (.cons ⟨?_, ?_, rfl, rfl, h4 _ List.mem_cons_self⟩ (drawAll_ok.mp hcs))⟩
        · dsimp only; rw [hv]; rfl
        · dsimp only; rw [hw]; rfl
    obtain ⟨cs, hcs⟩ := hd
    refine ⟨_, plotTraces_two.mpr ⟨ps, qs, .fixedHeading :: l, cs, hp, hq, ?_, h3, hcs, rfl⟩⟩
    unfold extraLegend
    dsimp only
    rw [hl]

theorem plasmaIndex_lt {k i j : Nat} (hk : k ≤ 256) (hij : i < j) (hj : j < k) : plasmaIndex k i < plasmaIndex k j := by
  unfold plasmaIndex
  have hk0 : 0 < k := by omega
  have h1 : 256 * i / k + 1 ≤ 256 * j / k := by
    rw [Nat.le_div_iff_mul_le hk0, Nat.add_mul, one_mul]
    have := Nat.div_mul_le_self (256 * i) k
    omega
  have h2 : 256 * j / k < 256 := Nat.div_lt_of_lt_mul (by rw [Nat.mul_comm k]; exact Nat.mul_lt_mul_of_pos_left hj (by norm_num))
  omega

theorem plasmaIndex_mono {k i j : Nat} (hij : i ≤ j) : plasmaIndex k i ≤ plasmaIndex k j :=
  min_le_min_left _ (Nat.div_le_div_right (Nat.mul_le_mul_left _ hij))

/-- Injectivity of an indexed marking of the distinct values, from injectivity on the indices. -/
theorem marks_injective (vals : List α) (m : Nat → Nat) (b : Nat) (hlt : ∀ i, m i < b) (hinj : vals.toFinset.card ≤ b → ∀ i j, i < j → j < vals.toFinset.card → m i ≠ m j) :
    (∀ v w, v ∈ vals → w ∈ vals → m ((distinct vals).idxOf v) = m ((distinct vals).idxOf w) → v = w) ↔ vals.toFinset.card ≤ b := by
  constructor
  · intro h
    by_contra hc
    push Not at hc
    rw [← length_distinct] at hc
    obtain ⟨i, j, hij, he⟩ := Fintype.exists_ne_map_eq_of_card_lt (fun i : Fin (distinct vals).length => (⟨m i, hlt i⟩ : Fin b)) (by simpa using hc)
    have hn := distinct_nodup vals
    have := h _ _ (mem_distinct.mp (List.getElem_mem i.2)) (mem_distinct.mp (List.getElem_mem j.2)) (by
      rw [hn.idxOf_getElem, hn.idxOf_getElem]; exact congrArg Fin.val he)
    exact hij (Fin.ext ((hn.getElem_inj_iff).mp this))
  · intro hb v w hv hw he
    have lv := List.idxOf_lt_length_of_mem (mem_distinct.mpr hv)
    have lw := List.idxOf_lt_length_of_mem (mem_distinct.mpr hw)
    rw [length_distinct] at lv lw
    have e : (distinct vals).idxOf v = (distinct vals).idxOf w := by
      rcases lt_trichotomy ((distinct vals).idxOf v) ((distinct vals).idxOf w) with h | h | h
      · exact absurd he (hinj hb _ _ h lw)
      · exact h
      · exact absurd he.symm (hinj hb _ _ h lv)
    exact List.idxOf_inj (mem_distinct.mpr hv) |>.mp e

theorem extraLegend_fixed {cfgs : List (PyDict α)} {extra : Option (List PyStr)} {l : List (LegendEntry α)} (h : extraLegend cfgs extra = .ok l) :
    (∀ i v, LegendEntry.colour i v ∉ l) ∧ ∀ i v, LegendEntry.style i v ∉ l := by
  unfold extraLegend at h
  split at h
  · obtain rfl := Except.ok.inj h; simp
  · rename_i keys
    rcases hf : fixedLegend cfgs keys with e | l'
    · rw [hf] at h; cases h
    rw [hf] at h
    obtain rfl := Except.ok.inj h
    have key : ∀ e ∈ l', ∃ k v, e = LegendEntry.fixed k v := by
      intro e he
      obtain ⟨i, hi, rfl⟩ := List.getElem_of_mem he
      have hF := fixedLegend_ok hf
      obtain ⟨v, hv, -⟩ := hF.get (hF.length_eq ▸ hi) hi
      exact ⟨_, v, hv⟩
    constructor <;> intro i v hm <;> rcases List.mem_cons.mp hm with hm | hm
    · cases hm
    · obtain ⟨_, _, he⟩ := key _ hm; cases he
    · cases hm
    · obtain ⟨_, _, he⟩ := key _ hm; cases he

section
variable {cfgs : List (PyDict α)} {traces : List (List FV)} {iters : List (List ℝ)} {p q : PyStr} {extra : Option (List PyStr)} {fig : Figure α}
  (h : plotTraces cfgs traces iters [p, q] extra = .ok fig)
include h

/-- **C114** one curve for each run, showing its own trace over its own iterations, drawn as the legend says for its values of the two parameters. -/
theorem C114_curves : fig.curves.length = min cfgs.length (min traces.length iters.length) ∧
    ∀ (i : Nat) (hi : i < fig.curves.length) (h1 : i < cfgs.length) (h2 : i < traces.length) (h3 : i < iters.length),
      fig.curves[i].ys = traces[i] ∧ fig.curves[i].xs = iters[i] ∧
      ∃ v w, cfgs[i].get? p = some v ∧ cfgs[i].get? q = some w ∧ LegendEntry.colour fig.curves[i].colour v ∈ fig.legend ∧ LegendEntry.style fig.curves[i].style w ∈ fig.legend := by
  obtain ⟨ps, qs, l, cs, h1, h2, h3, h4, h5, rfl⟩ := plotTraces_two.mp h
  have hd := drawAll_ok.mp h5
  refine ⟨by rw [← hd.length_eq, List.length_zip, List.length_zip], fun i hi b1 b2 b3 => ?_⟩
  have hi' : i < (cfgs.zip (traces.zip iters)).length := by rw [hd.length_eq]; exact hi
  have := hd.get hi' hi
  simp only [List.get_eq_getElem, List.getElem_zip] at this
  obtain ⟨a1, a2, a3, a4, -⟩ := this
  obtain ⟨v, hv⟩ := Option.isSome_iff_exists.mp (column_iff.mp ⟨_, h1⟩ cfgs[i] (List.getElem_mem b1))
  obtain ⟨w, hw⟩ := Option.isSome_iff_exists.mp (column_iff.mp ⟨_, h2⟩ cfgs[i] (List.getElem_mem b1))
  rw [hv] at a1
  rw [hw] at a2
  refine ⟨a3, a4, v, w, hv, hw, ?_, ?_⟩
  · rw [← Option.some.inj a1]
    refine List.mem_append_left _ (List.mem_append_left _ (List.mem_cons_of_mem _ (List.mem_map.mpr ⟨v, ?_, rfl⟩)))
    exact mem_distinct.mpr ((mem_column h1).mpr ⟨_, List.getElem_mem b1, hv⟩)
  · rw [← Option.some.inj a2]
    refine List.mem_append_left _ (List.mem_append_right _ (List.mem_cons_of_mem _ (List.mem_map.mpr ⟨w, ?_, rfl⟩)))
    exact mem_distinct.mpr ((mem_column h2).mpr ⟨_, List.getElem_mem b1, hw⟩)

theorem legend_mem : ∃ ps qs, column cfgs p = .ok ps ∧ column cfgs q = .ok qs ∧
    (∀ i v, LegendEntry.colour i v ∈ fig.legend ↔ v ∈ ps ∧ i = colourOf ps v) ∧ ∀ i v, LegendEntry.style i v ∈ fig.legend ↔ v ∈ qs ∧ i = styleOf qs v := by
  obtain ⟨ps, qs, l, cs, h1, h2, h3, h4, h5, rfl⟩ := plotTraces_two.mp h
  obtain ⟨e1, e2⟩ := extraLegend_fixed h3
  refine ⟨ps, qs, h1, h2, fun i v => ?_, fun i v => ?_⟩ <;> dsimp only
  · unfold colourLegend styleLegend
    simp only [List.mem_append, List.mem_cons, List.mem_map, e1, or_false, reduceCtorEq, false_or, and_false, exists_false, LegendEntry.colour.injEq, mem_distinct]
    constructor
    · rintro ⟨a, ha, h1, rfl⟩; exact ⟨ha, h1.symm⟩
    · rintro ⟨ha, h1⟩; exact ⟨v, ha, h1.symm, rfl⟩
  · unfold colourLegend styleLegend
    simp only [List.mem_append, List.mem_cons, List.mem_map, e2, or_false, reduceCtorEq, false_or, and_false, exists_false, LegendEntry.style.injEq, mem_distinct]
    constructor
    · rintro ⟨a, ha, h1, rfl⟩; exact ⟨ha, h1.symm⟩
    · rintro ⟨ha, h1⟩; exact ⟨v, ha, h1.symm, rfl⟩

/-- **C114** the legend lists the values that occur, each with one colour (line style), the colours in the order of the values. -/
theorem C114_legend :
    (∀ v, (∃ i, LegendEntry.colour i v ∈ fig.legend) ↔ ∃ c ∈ cfgs, c.get? p = some v) ∧ (∀ v, (∃ i, LegendEntry.style i v ∈ fig.legend) ↔ ∃ c ∈ cfgs, c.get? q = some v) ∧
    (∀ v i j, LegendEntry.colour i v ∈ fig.legend → LegendEntry.colour j v ∈ fig.legend → i = j) ∧
    (∀ v i j, LegendEntry.style i v ∈ fig.legend → LegendEntry.style j v ∈ fig.legend → i = j) ∧
    ∀ v w i j, LegendEntry.colour i v ∈ fig.legend → LegendEntry.colour j w ∈ fig.legend → v < w → i ≤ j := by
  obtain ⟨ps, qs, h1, h2, h3, h4⟩ := legend_mem h
  refine ⟨fun v => ?_, fun v => ?_, fun v i j a b => ?_, fun v i j a b => ?_, fun v w i j a b hvw => ?_⟩
  · simp only [h3, ← mem_column h1]
    exact ⟨fun ⟨i, a, _⟩ => a, fun a => ⟨_, a, rfl⟩⟩
  · simp only [h4, ← mem_column h2]
    exact ⟨fun ⟨i, a, _⟩ => a, fun a => ⟨_, a, rfl⟩⟩
  · rw [h3] at a b; exact a.2.trans b.2.symm
  · rw [h4] at a b; exact a.2.trans b.2.symm
  · rw [h3] at a b
    rw [a.2, b.2]
    refine plasmaIndex_mono ?_
    have lv := List.idxOf_lt_length_of_mem (mem_distinct.mpr a.1)
    have lw := List.idxOf_lt_length_of_mem (mem_distinct.mpr b.1)
    by_contra hc
    push Not at hc
    have hs : (distinct ps).Pairwise (· < ·) := (Finset.sortedLT_sort _).pairwise
    have := List.pairwise_iff_getElem.mp hs _ _ lw lv hc
    rw [List.getElem_idxOf, List.getElem_idxOf] at this
    exact absurd hvw (not_lt_of_gt this)

/-- **C114** different values of the first parameter have different colours exactly if there are at most 256 of them; (finding) different values of the second parameter have different
line styles exactly if there are at most five. -/
theorem C114_distinguished_iff :
    ((∀ i v w, LegendEntry.colour i v ∈ fig.legend → LegendEntry.colour i w ∈ fig.legend → v = w) ↔ (cfgs.filterMap fun c => c.get? p).toFinset.card ≤ 256) ∧
    ((∀ i v w, LegendEntry.style i v ∈ fig.legend → LegendEntry.style i w ∈ fig.legend → v = w) ↔ (cfgs.filterMap fun c => c.get? q).toFinset.card ≤ 5) := by
  obtain ⟨ps, qs, h1, h2, h3, h4⟩ := legend_mem h
  have hf : ∀ {r : PyStr} {vals : List α}, column cfgs r = .ok vals → (cfgs.filterMap fun c => c.get? r) = vals := by
    intro r vals hr
    rw [column_ok] at hr
    have : (cfgs.filterMap fun c => c.get? r) = (cfgs.map fun c => c.get? r).filterMap id := by rw [List.filterMap_map]; rfl
    rw [this, hr, List.filterMap_map]
    simp
  rw [hf h1, hf h2]
  constructor
  · rw [← marks_injective ps (fun i => plasmaIndex (distinct ps).length i) 256 (fun i => by unfold plasmaIndex; omega) fun hb i j hij hj =>
      ne_of_lt (plasmaIndex_lt (by rw [length_distinct]; exact hb) hij (by rw [length_distinct]; exact hj))]
    simp only [h3]
    exact ⟨fun H v w hv hw e => H _ v w ⟨hv, rfl⟩ ⟨hw, e⟩, fun H i v w a b => H v w a.1 b.1 (a.2.symm.trans b.2)⟩
  · rw [← marks_injective qs styleIndex 5 (fun i => by unfold styleIndex; omega) fun hb i j hij hj => by unfold styleIndex; omega]
    simp only [h4]
    exact ⟨fun H v w hv hw e => H _ v w ⟨hv, rfl⟩ ⟨hw, e⟩, fun H i v w a b => H v w a.1 b.1 (a.2.symm.trans b.2)⟩

end
/-- **C114** at least one and at most two parameters. -/
theorem C114_parameters (cfgs : List (PyDict α)) (traces : List (List FV)) (iters : List (List ℝ)) (sweep : List PyStr) (extra : Option (List PyStr))
    (h : sweep.length = 0 ∨ 2 < sweep.length) : ∃ e, plotTraces cfgs traces iters sweep extra = .error e := by
  match sweep, h with
  | [], _ => exact ⟨_, rfl⟩
  | [_], h => simp at h
  | [_, _], h => simp at h
  | _ :: _ :: _ :: _, _ => exact ⟨_, rfl⟩

/-- **C114** with one parameter: one solid curve for each run, with its own trace, in the colour of its value in the legend. -/
theorem C114_one_parameter {cfgs : List (PyDict α)} {traces : List (List FV)} {iters : List (List ℝ)} {p : PyStr} {extra : Option (List PyStr)} {fig : Figure α}
    (h : plotTraces cfgs traces iters [p] extra = .ok fig) : fig.curves.length = min cfgs.length (min traces.length iters.length) ∧
    ∀ (i : Nat) (hi : i < fig.curves.length) (h1 : i < cfgs.length) (h2 : i < traces.length) (h3 : i < iters.length),
      fig.curves[i].ys = traces[i] ∧ fig.curves[i].xs = iters[i] ∧ fig.curves[i].style = 0 ∧
      ∃ v, cfgs[i].get? p = some v ∧ LegendEntry.colour fig.curves[i].colour v ∈ fig.legend := by
  unfold plotTraces at h
  dsimp only at h
  rcases hp : column cfgs p with e | ps
  · rw [hp] at h; cases h
  rcases hl : extraLegend cfgs extra with e | l
  · rw [hp, hl] at h; cases h
  rcases hd : drawAll (fun c => (c.get? p).map (colourOf ps)) (fun _ => some 0) (cfgs.zip (traces.zip iters)) with e | cs
  · rw [hp, hl] at h; dsimp only at h; rw [hd] at h; cases h
  rw [hp, hl] at h
  dsimp only at h
  rw [hd] at h
  obtain rfl := Except.ok.inj h
  have hD := drawAll_ok.mp hd
  refine ⟨by rw [← hD.length_eq, List.length_zip, List.length_zip], fun i hi b1 b2 b3 => ?_⟩
  have hi' : i < (cfgs.zip (traces.zip iters)).length := by rw [hD.length_eq]; exact hi
  have := hD.get hi' hi
  simp only [List.get_eq_getElem, List.getElem_zip] at this
  obtain ⟨a1, a2, a3, a4, -⟩ := this
  obtain ⟨v, hv⟩ := Option.isSome_iff_exists.mp (column_iff.mp ⟨_, hp⟩ cfgs[i] (List.getElem_mem b1))
  rw [hv] at a1
  refine ⟨a3, a4, (Option.some.inj a2).symm, v, hv, ?_⟩
  rw [← Option.some.inj a1]
  refine List.mem_append_left _ (List.mem_cons_of_mem _ (List.mem_map.mpr ⟨v, ?_, rfl⟩))
  exact mem_distinct.mpr ((mem_column hp).mpr ⟨_, List.getElem_mem b1, hv⟩)

end

/-! ## The script -/

/-- The step size of a run. -/
def runStep (r : Run) : Option ℝ := (numbers r.cfg).get? "dt".toList

theorem untilError_mem {β : Type} {L : List (Except String β)} {b : β} (h : b ∈ (untilError L).1) : .ok b ∈ L := by
  induction L with
  | nil => cases h
  | cons a rest ih =>
    cases a with
    | error e => cases h
    | ok x =>
      rcases List.mem_cons.mp h with rfl | h
      · exact List.mem_cons_self
      · exact List.mem_cons_of_mem _ (ih h)

theorem untilError_none {β : Type} {L : List (Except String β)} : (untilError L).2 = none ↔ ∀ a ∈ L, ∃ b, a = .ok b := by
  induction L with
  | nil => simp [untilError]
  | cons a rest ih =>
    cases a with
    | error e => simp [untilError]
    | ok x => simp [untilError, ih]

theorem untilError_length {β : Type} {L : List (Except String β)} (h : (untilError L).2 = none) : (untilError L).1.length = L.length := by
  induction L with
  | nil => rfl
  | cons a rest ih =>
    cases a with
    | error e => cases h
    | ok x => exact congrArg Nat.succ (ih h)

open Classical in
theorem withStep_ok {β : Type} {dt : ℝ} {l r : List (PyDict ℝ × β)} :
    withStep dt l = .ok r ↔ (∀ e ∈ l, (e.1.get? "dt".toList).isSome) ∧ r = l.filter fun e => decide (e.1.get? "dt".toList = some dt) := by
  induction l generalizing r with
  | nil =>
    unfold withStep
    exact ⟨fun h => ⟨by simp, (Except.ok.inj h).symm⟩, fun h => by rw [h.2]; rfl⟩
  | cons e rest ih =>
    obtain ⟨c, b⟩ := e
    unfold withStep
    rcases hc : c.get? "dt".toList with _ | v
    · refine ⟨fun h => (nomatch h), fun h => ?_⟩
      have := h.1 (c, b) List.mem_cons_self
      rw [hc] at this; cases this
    · rcases hr : withStep dt rest with e | l
      · refine ⟨fun h => (nomatch h), fun h => ?_⟩
        rw [ih.mpr ⟨fun e he => h.1 e (List.mem_cons_of_mem _ he), rfl⟩] at hr
        cases hr
      · obtain ⟨a1, a2⟩ := ih.mp hr
        have e1 : ((c, b) :: rest).filter (fun e => decide (e.1.get? "dt".toList = some dt)) = if v = dt then (c, b) :: l else l := by
          rw [List.filter_cons, ← a2]
          dsimp only
          rw [hc]
          by_cases hv : v = dt
          · simp [hv]
          · simp [hv]
        rw [e1]
        constructor
        · intro h
          refine ⟨fun e he => ?_, (Except.ok.inj h).symm⟩
          rcases List.mem_cons.mp he with rfl | he
          · dsimp only; rw [hc]; rfl
          · exact a1 e he
        · rintro ⟨-, rfl⟩; rfl

/-- What a figure shows of a run `r` among the loaded ones. -/
noncomputable def shown (q : String × Bool) (runs : List Run) (r : Run) : List FV :=
  if q.2 then List.zipWith absDiff r.force ((runs.map (·.force)).headD []) else if q.1 = "energy_diff_trace" then r.force.map absFV else r.force

theorem sweepTraces_ok {q : String × Bool} (hq : q ∈ quantities) {runs : List Run} {ts : List (List FV)} :
    sweepTraces q.1 q.2 (runs.map (·.force)) = .ok ts ↔
      (∀ r ∈ runs, ∀ r' ∈ runs, r.force.length = r'.force.length) ∧ (q.2 = true → runs ≠ []) ∧ ts = runs.map (shown q runs) := by
  have hq' : q.2 = true → q.1 ≠ "energy_diff_trace" := by
    revert q; decide
  have hall : (runs.map (·.force)).all (fun t => decide (t.length = ((runs.map (·.force)).headD []).length)) = true ↔
      ∀ r ∈ runs, ∀ r' ∈ runs, r.force.length = r'.force.length := by
    rw [List.all_eq_true]
    simp only [List.mem_map, forall_exists_index, and_imp, forall_apply_eq_imp_iff₂, decide_eq_true_eq]
    cases runs with
    | nil => simp
    | cons r0 rest =>
      constructor
      · intro h r hr r' hr'; rw [h r hr, h r' hr']
      · intro h r hr; exact h r hr r0 List.mem_cons_self
  unfold sweepTraces
  by_cases hl : (runs.map (·.force)).all (fun t => decide (t.length = ((runs.map (·.force)).headD []).length)) = true
  · rw [if_pos hl]
    have hl' := hall.mp hl
    by_cases h2 : q.2 = true
    · simp only [h2, if_neg (hq' h2), if_true, true_implies]
      cases runs with
      | nil => simp
      | cons r0 rest =>
        simp only [List.map_cons]
        constructor
        · intro h
          refine ⟨hl', by simp, ?_⟩
          rw [← Except.ok.inj h]
          simp [shown, h2]
        · rintro ⟨-, -, rfl⟩
          simp [shown, h2]
    · simp only [Bool.not_eq_true] at h2
      simp only [h2, Bool.false_eq_true, if_false, false_implies, true_and]
      have e : (if q.1 = "energy_diff_trace" then (runs.map (·.force)).map fun t => t.map absFV else runs.map (·.force)) = runs.map (shown q runs) := by
        by_cases h1 : q.1 = "energy_diff_trace"
        · simp [shown, h1, h2]
        · simp [shown, h1, h2]
      rw [e]
      exact ⟨fun h => ⟨hl', (Except.ok.inj h).symm⟩, fun h => by rw [h.2]⟩
  · rw [if_neg hl]
    exact ⟨fun h => (nomatch h), fun h => absurd (hall.mpr h.1) hl⟩

section
variable (ref : PyDict Attr) (dir : List (PyStr × Option H5File))

/-- The runs that `load_sweep` returns to the script. -/
noncomputable def sweepRuns (q : String) : Except String (List Run) := loadSweep ref q.toList ["dt_max".toList, "n_r".toList, "n_chi".toList, "dt".toList] dir

theorem quantity_runs (q : String × Bool) (runs : List Run) :
    (runs.zip (runs.map (shown q runs))).map (fun e => (numbers e.1.cfg, e.2, sweepIters e.2 (saveEvery e.1.cfg))) =
      runs.map fun r => (numbers r.cfg, shown q runs r, sweepIters (shown q runs r) (saveEvery r.cfg)) := by
  have : runs.zip (runs.map (shown q runs)) = runs.map fun r => (r, shown q runs r) := by
    generalize shown q runs = f
    induction runs with
    | nil => rfl
    | cons a l ih => simp [ih]
  rw [this, List.map_map]
  rfl

open Classical in
theorem stepFigure_ok {q : String × Bool} {runs : List Run} {dt : ℝ × String} {out : PyStr × Figure ℝ} :
    stepFigure q.1 (runs.map fun r => (numbers r.cfg, shown q runs r, sweepIters (shown q runs r) (saveEvery r.cfg))) dt = .ok out ↔
      (∀ r ∈ runs, (runStep r).isSome) ∧ ∃ fig, out = (figureFile q.1 dt.2, fig) ∧
        plotTraces ((runs.filter fun r => decide (runStep r = some dt.1)).map fun r => numbers r.cfg) ((runs.filter fun r => decide (runStep r = some dt.1)).map (shown q runs))
          ((runs.filter fun r => decide (runStep r = some dt.1)).map fun r => sweepIters (shown q runs r) (saveEvery r.cfg)) ["n_r".toList, "dt_max".toList] (some ["dt".toList]) = .ok fig := by
  unfold stepFigure
  generalize hg : (fun r : Run => (numbers r.cfg, shown q runs r, sweepIters (shown q runs r) (saveEvery r.cfg))) = g
  have hg1 : ∀ r, (g r).1 = numbers r.cfg := fun r => by rw [← hg]
  have hg2 : ∀ r, (g r).2.1 = shown q runs r := fun r => by rw [← hg]
  have hg3 : ∀ r, (g r).2.2 = sweepIters (shown q runs r) (saveEvery r.cfg) := fun r => by rw [← hg]
  have hfil : (runs.map g).filter (fun e => decide (e.1.get? "dt".toList = some dt.1)) = (runs.filter fun r => decide (runStep r = some dt.1)).map g := by
    rw [List.filter_map]
    congr 1
    apply List.filter_congr
    intro r _
    show decide ((g r).1.get? "dt".toList = some dt.1) = _
    rw [hg1]; rfl
  have hsome : (∀ e ∈ runs.map g, (e.1.get? "dt".toList).isSome) ↔ ∀ r ∈ runs, (runStep r).isSome := by
    simp only [List.mem_map, forall_exists_index, and_imp, forall_apply_eq_imp_iff₂, hg1]
    rfl
  rcases hw : withStep dt.1 (runs.map g) with e | rs
  · refine ⟨fun h => (nomatch h), fun h => ?_⟩
    rw [withStep_ok.mpr ⟨hsome.mpr h.1, rfl⟩] at hw
    cases hw
  · obtain ⟨a1, rfl⟩ := withStep_ok.mp hw
    dsimp only
    rw [hfil, List.map_map, List.map_map, List.map_map]
    have e1 : ((fun x : PyDict ℝ × List FV × List ℝ => x.1) ∘ g) = fun r : Run => numbers r.cfg := funext hg1
    have e2 : ((fun x : PyDict ℝ × List FV × List ℝ => x.2.1) ∘ g) = shown q runs := funext hg2
    have e3 : ((fun x : PyDict ℝ × List FV × List ℝ => x.2.2) ∘ g) = fun r => sweepIters (shown q runs r) (saveEvery r.cfg) := funext hg3
    rw [e1, e2, e3]
    generalize plotTraces ((runs.filter fun r => decide (runStep r = some dt.1)).map fun r => numbers r.cfg) ((runs.filter fun r => decide (runStep r = some dt.1)).map (shown q runs))
          ((runs.filter fun r => decide (runStep r = some dt.1)).map fun r => sweepIters (shown q runs r) (saveEvery r.cfg)) ["n_r".toList, "dt_max".toList] (some ["dt".toList]) = X
    cases X with
    | error e =>
      refine ⟨fun h => (nomatch h), ?_⟩
      rintro ⟨-, fig, -, h⟩; cases h
    | ok fig =>
      constructor
      · intro h
        exact ⟨hsome.mp a1, fig, (Except.ok.inj h).symm, rfl⟩
      · rintro ⟨-, fig', rfl, h⟩
        rw [Except.ok.inj h]

/-- **C114** when the script gets to its end: exactly if for each of the six quantities the traces of the loaded runs are equally long, all have a step size, and for each of the three step sizes
there is a run, and all such runs have `n_r` and `dt_max`. Then it writes all 18 figures. -/
theorem C114_script_iff : (forceMultiplot ref dir).2 = none ↔
    ∀ q ∈ quantities, ∃ runs, sweepRuns ref dir q.1 = .ok runs ∧ (∀ r ∈ runs, ∀ r' ∈ runs, r.force.length = r'.force.length) ∧ (∀ r ∈ runs, (runStep r).isSome) ∧
      ∀ dt ∈ [((1 / 10 ^ 6 : ℝ), "1e-06"), (1 / 10 ^ 5, "1e-05"), (1 / 10 ^ 4, "0.0001")], (∃ r ∈ runs, runStep r = some dt.1) ∧
        ∀ r ∈ runs, runStep r = some dt.1 → ((numbers r.cfg).get? "n_r".toList).isSome ∧ ((numbers r.cfg).get? "dt_max".toList).isSome := by
  classical
  unfold forceMultiplot
  rw [untilError_none]
  simp only [List.mem_flatMap, forall_exists_index, and_imp]
  rw [forall_comm]
  refine forall_congr' fun q => ?_
  rw [forall_comm]
  refine forall_congr' fun hq => ?_
  unfold quantityFigures
  rcases hr : loadSweep ref q.1.toList ["dt_max".toList, "n_r".toList, "n_chi".toList, "dt".toList] dir with e | runs
  · refine ⟨fun h => ?_, ?_⟩
    · obtain ⟨b, hb⟩ := h (.error e) (List.mem_singleton_self _)
      cases hb
    · rintro ⟨runs, h1, -⟩
      rw [sweepRuns, hr] at h1
      cases h1
  dsimp only
  have hr' : sweepRuns ref dir q.1 = .ok runs := hr
  obtain ⟨X, hs⟩ : ∃ X, X = sweepTraces q.1 q.2 (runs.map (·.force)) := ⟨_, rfl⟩
  rw [← hs]
  cases X with
  | error e =>
    constructor
    · intro h
      obtain ⟨b, hb⟩ := h (.error e) (List.mem_singleton_self _)
      cases hb
    · rintro ⟨runs', h1, h2, h3, h4⟩
      obtain rfl := Except.ok.inj (hr'.symm.trans h1)
      obtain ⟨⟨r, hr, -⟩, -⟩ := h4 (1 / 10 ^ 6, "1e-06") List.mem_cons_self
      have := (sweepTraces_ok hq).mpr ⟨h2, (fun _ h => by rw [h] at hr; cases hr), rfl⟩
      rw [← hs] at this
      cases this
  | ok ts =>
    obtain ⟨h2, -, rfl⟩ := (sweepTraces_ok hq).mp hs.symm
    dsimp only
    rw [quantity_runs]
    simp only [List.mem_map, forall_exists_index, and_imp, forall_apply_eq_imp_iff₂]
    have hdt : ∀ dt : ℝ × String, (∃ b, stepFigure q.1 (runs.map fun r => (numbers r.cfg, shown q runs r, sweepIters (shown q runs r) (saveEvery r.cfg))) dt = .ok b) ↔
        (∀ r ∈ runs, (runStep r).isSome) ∧ (∃ r ∈ runs, runStep r = some dt.1) ∧
          ∀ r ∈ runs, runStep r = some dt.1 → ((numbers r.cfg).get? "n_r".toList).isSome ∧ ((numbers r.cfg).get? "dt_max".toList).isSome := by
      intro dt
      have hF : ∀ r, r ∈ (runs.filter fun r => decide (runStep r = some dt.1)) ↔ r ∈ runs ∧ runStep r = some dt.1 := fun r => by rw [List.mem_filter, decide_eq_true_eq]
      have hC := C114_domain ((runs.filter fun r => decide (runStep r = some dt.1)).map fun r => numbers r.cfg) ((runs.filter fun r => decide (runStep r = some dt.1)).map (shown q runs))
          ((runs.filter fun r => decide (runStep r = some dt.1)).map fun r => sweepIters (shown q runs r) (saveEvery r.cfg)) "n_r".toList "dt_max".toList ["dt".toList]
      generalize hf : (runs.filter fun r => decide (runStep r = some dt.1)) = fs at hF hC
      constructor
      · rintro ⟨b, hb⟩
        obtain ⟨h3, fig, -, hfig⟩ := stepFigure_ok.mp hb
        rw [hf] at hfig
        obtain ⟨k1, k2, -, -⟩ := hC.mp ⟨fig, hfig⟩
        refine ⟨h3, ?_, fun r hr hrs => k1 _ (List.mem_map_of_mem (f := fun r : Run => numbers r.cfg) ((hF r).mpr ⟨hr, hrs⟩))⟩
        obtain ⟨hne, -⟩ := k2 _ (List.mem_singleton_self _)
        obtain ⟨r, hr⟩ := List.exists_mem_of_ne_nil fs (fun h => hne (by rw [h]; rfl))
        exact ⟨r, (hF r).mp hr⟩
      · rintro ⟨h3, ⟨r, hr, hrs⟩, h4⟩
        obtain ⟨fig, hfig⟩ := hC.mpr ⟨fun c hc => by
            obtain ⟨r, hr, rfl⟩ := List.mem_map.mp hc
            exact h4 r ((hF r).mp hr).1 ((hF r).mp hr).2, fun k hk => by
            obtain rfl := List.mem_singleton.mp hk
            refine ⟨fun h => ?_, dt.1, fun c hc => ?_⟩
            · have := (hF r).mpr ⟨hr, hrs⟩
              rw [List.map_eq_nil_iff] at h
              rw [h] at this; cases this
            · obtain ⟨r, hr, rfl⟩ := List.mem_map.mp hc
              exact ((hF r).mp hr).2, fun h => absurd h (by decide), fun e he => by
            rw [List.zip_map', List.zip_map', List.mem_map] at he
            obtain ⟨r, -, rfl⟩ := he
            simp [sweepIters]⟩
        exact ⟨_, stepFigure_ok.mpr ⟨h3, fig, rfl, by rw [hf]; exact hfig⟩⟩
    simp only [hdt]
    constructor
    · intro h
      have h0 := (h (1 / 10 ^ 6, "1e-06") (by unfold stepSizes; exact List.mem_cons_self)).1
      exact ⟨runs, hr', h2, h0, fun dt hd => (h dt hd).2⟩
    · rintro ⟨runs', h1, -, h3, h4⟩ dt hd
      obtain rfl := Except.ok.inj (hr'.symm.trans h1)
      exact ⟨h3, h4 dt hd⟩

/-- **C114** then it writes all 18 figures. -/
theorem C114_script_all (h : (forceMultiplot ref dir).2 = none) : (forceMultiplot ref dir).1.length = 18 := by
  have hq := (C114_script_iff ref dir).mp h
  unfold forceMultiplot at h ⊢
  rw [untilError_length h]
  have key : ∀ q ∈ quantities, (quantityFigures ref dir q).length = 3 := by
    intro q hqm
    obtain ⟨runs, h1, h2, h3, h4⟩ := hq q hqm
    have h1' : loadSweep ref q.1.toList ["dt_max".toList, "n_r".toList, "n_chi".toList, "dt".toList] dir = .ok runs := h1
    unfold quantityFigures
    rw [h1']
    dsimp only
    have : sweepTraces q.1 q.2 (runs.map (·.force)) = .ok (runs.map (shown q runs)) := (sweepTraces_ok hqm).mpr ⟨h2, (fun _ h => by
      obtain ⟨⟨r, hr, -⟩, -⟩ := h4 (1 / 10 ^ 6, "1e-06") List.mem_cons_self
      rw [h] at hr; cases hr), rfl⟩
    rw [this]
    simp [stepSizes]
  have : ∀ l : List (String × Bool), (∀ q ∈ l, (quantityFigures ref dir q).length = 3) → (l.flatMap (quantityFigures ref dir)).length = 3 * l.length := by
    intro l
    induction l with
    | nil => intro _; rfl
    | cons a l ih =>
      intro h
      rw [List.flatMap_cons, List.length_append, h a List.mem_cons_self, ih fun q hq => h q (List.mem_cons_of_mem _ hq), List.length_cons]
      ring
  rw [this _ key]
  rfl

theorem figureFile_inj : ∀ a ∈ quantities, ∀ b ∈ quantities, ∀ s ∈ ["1e-06", "1e-05", "0.0001"], ∀ t ∈ ["1e-06", "1e-05", "0.0001"],
    figureFile a.1 s = figureFile b.1 t → a = b ∧ s = t := by
  decide +kernel

theorem untilError_all {β : Type} {l : List (Except String β)} (h : (untilError l).2 = none) : l = (untilError l).1.map .ok := by
  induction l with
  | nil => rfl
  | cons a l ih =>
    cases a with
    | error e => cases h
    | ok b =>
      have h' : (untilError l).2 = none := h
      conv_lhs => rw [ih h']
      rfl

/-- **C114** to different files: one for each of the six quantities and three step sizes, in this order. -/
theorem C114_file_names (h : (forceMultiplot ref dir).2 = none) :
    (forceMultiplot ref dir).1.map (·.1) = (["force_trace", "helicity_trace", "energy_diff_trace", "picard_errors", "picard_iterations", "timesteps"].flatMap fun q =>
      ["1e-06", "1e-05", "0.0001"].map fun s => ("script_outputs/solovev/ITER_sweep_1/iter_sweep/multiplot_" ++ q ++ "_dt_" ++ s ++ ".png").toList) ∧
    ((forceMultiplot ref dir).1.map (·.1)).Nodup := by
  have hl : quantities.flatMap (quantityFigures ref dir) = (forceMultiplot ref dir).1.map .ok := untilError_all h
  have key : ∀ (l : List (String × Bool)) (r : List (PyStr × Figure ℝ)), l.flatMap (quantityFigures ref dir) = r.map .ok →
      r.map (·.1) = l.flatMap fun q => ["1e-06", "1e-05", "0.0001"].map (figureFile q.1) := by
    intro l
    induction l with
    | nil =>
      intro r hr
      rw [List.flatMap_nil] at hr
      rw [List.map_eq_nil_iff.mp hr.symm]
      rfl
    | cons q l ih =>
      intro r hr
      rw [List.flatMap_cons] at hr
      obtain ⟨r1, r2, rfl, h1, h2⟩ := List.map_eq_append_iff.mp hr.symm
      rw [List.map_append, List.flatMap_cons, ih r2 h2.symm]
      congr 1
      unfold quantityFigures at h1
      rcases hs : loadSweep ref q.1.toList ["dt_max".toList, "n_r".toList, "n_chi".toList, "dt".toList] dir with e | runs
      · rw [hs] at h1
        have : Except.error e ∈ r1.map Except.ok := by rw [h1]; exact List.mem_cons_self
        obtain ⟨x, -, hx⟩ := List.mem_map.mp this
        cases hx
      · rw [hs] at h1
        dsimp only at h1
        rcases ht : sweepTraces q.1 q.2 (runs.map (·.force)) with e | ts
        · rw [ht] at h1
          have : Except.error e ∈ r1.map Except.ok := by rw [h1]; exact List.mem_cons_self
          obtain ⟨x, -, hx⟩ := List.mem_map.mp this
          cases hx
        · rw [ht] at h1
          dsimp only at h1
          generalize ((runs.zip ts).map fun e => (numbers e.1.cfg, e.2, sweepIters e.2 (saveEvery e.1.cfg))) = rs at h1
          have one : ∀ (sizes : List (ℝ × String)) (r1 : List (PyStr × Figure ℝ)), r1.map Except.ok = sizes.map (stepFigure q.1 rs) → r1.map (·.1) = (sizes.map (·.2)).map (figureFile q.1) := by
            intro sizes
            induction sizes with
            | nil =>
              intro r1 h
              rw [List.map_eq_nil_iff.mp h]
              rfl
            | cons a sizes ih2 =>
              intro r1 h
              cases r1 with
              | nil => cases h
              | cons x r1 =>
                rw [List.map_cons, List.map_cons] at h
                obtain ⟨hx, ht⟩ := List.cons.inj h
                rw [List.map_cons, ih2 r1 ht, List.map_cons, List.map_cons]
                congr 1
                unfold stepFigure at hx
                rcases hw : withStep a.1 rs with e | rs'
                · rw [hw] at hx; cases hx
                · rw [hw] at hx
                  dsimp only at hx
                  split at hx
                  · cases hx
                  · rw [Except.ok.inj hx]
          exact one stepSizes r1 h1
  have e := key quantities _ hl
  refine ⟨e, ?_⟩
  rw [e]
  decide +kernel

open Classical in
/-- **C114** what a figure of the script shows: the curves are those of the loaded runs with its step size, each over the multiples of its own `save_every`. -/
theorem C114_script_curves {file : PyStr} {fig : Figure ℝ} (h : (file, fig) ∈ (forceMultiplot ref dir).1) :
    ∃ q ∈ quantities, ∃ dt ∈ [((1 / 10 ^ 6 : ℝ), "1e-06"), (1 / 10 ^ 5, "1e-05"), (1 / 10 ^ 4, "0.0001")], file = figureFile q.1 dt.2 ∧ ∃ runs, sweepRuns ref dir q.1 = .ok runs ∧
      List.Forall₂ (fun r c => c.ys = shown q runs r ∧
          ∀ m : Int, r.cfg.get? "save_every".toList = some (.int m) → c.xs = (List.range (shown q runs r).length).map fun k : Nat => (m * k : ℝ))
        (runs.filter fun r => decide (runStep r = some dt.1)) fig.curves := by
  have hm := untilError_mem h
  obtain ⟨q, hq, hm⟩ := List.mem_flatMap.mp hm
  unfold quantityFigures at hm
  rcases hr : loadSweep ref q.1.toList ["dt_max".toList, "n_r".toList, "n_chi".toList, "dt".toList] dir with e | runs
  · rw [hr] at hm
    cases List.mem_singleton.mp hm
  rw [hr] at hm
  dsimp only at hm
  obtain ⟨X, hs⟩ : ∃ X, X = sweepTraces q.1 q.2 (runs.map (·.force)) := ⟨_, rfl⟩
  rw [← hs] at hm
  cases X with
  | error e => cases List.mem_singleton.mp hm
  | ok ts =>
    obtain ⟨h2, -, rfl⟩ := (sweepTraces_ok hq).mp hs.symm
    dsimp only at hm
    rw [quantity_runs] at hm
    obtain ⟨dt, hdt, hm⟩ := List.mem_map.mp hm
    obtain ⟨h3, fig', e, hfig⟩ := stepFigure_ok.mp hm
    obtain ⟨e1, e2⟩ := Prod.mk.inj e
    subst e2
    refine ⟨q, hq, dt, hdt, e1, runs, hr, ?_⟩
    obtain ⟨c1, c2⟩ := C114_curves hfig
    simp only [List.length_map, min_self] at c1
    refine List.forall₂_iff_get.mpr ⟨c1.symm, fun i hi hi' => ?_⟩
    have := c2 i hi' (by simpa using hi) (by simpa using hi) (by simpa using hi)
    simp only [List.getElem_map] at this
    refine ⟨this.1, fun m hm' => this.2.1.trans ?_⟩
    rw [List.get_eq_getElem] at hm' ⊢
    simp only [sweepIters, saveEvery, hm']

end

theorem absDiff_self {a : FV} {x : ℝ} (h : a = .fin x) : absDiff a a = .fin 0 := by
  subst h; simp [absDiff]

/-- **C114 (finding)** the figures of the helicity, whose axis is labelled `|H - H_0|`, show the difference to the first of the loaded runs at the same place of the trace, not the difference to
the initial helicity: entry `k` of a curve is `|H(k) - H_first(k)|`. -/
theorem C114_helicity (runs : List Run) (first r : Run) (rest : List Run) (hr : runs = first :: rest) (hl : r.force.length = first.force.length) :
    (shown ("helicity_trace", true) runs r).length = r.force.length ∧
    ∀ k (h1 : k < r.force.length) (h2 : k < first.force.length) (h3 : k < (shown ("helicity_trace", true) runs r).length),
      (shown ("helicity_trace", true) runs r)[k] = absDiff r.force[k] first.force[k] := by
  subst hr
  refine ⟨by simp [shown, hl], fun k h1 h2 h3 => by simp [shown]⟩

/-- **C114 (finding)** so the curve of the first loaded run is zero, however much its helicity changes; what the label says (the distance from the first entry of its own trace) is drawn for it
exactly if its helicity never changes. -/
theorem C114_helicity_first (first : Run) (rest : List Run) (xs : List ℝ) (hx : first.force = xs.map .fin) :
    shown ("helicity_trace", true) (first :: rest) first = xs.map (fun _ => .fin 0) ∧
    (shown ("helicity_trace", true) (first :: rest) first = xs.map (fun x => absDiff (.fin x) (.fin (xs.headD 0))) ↔ ∀ x ∈ xs, x = xs.headD 0) := by
  have e : shown ("helicity_trace", true) (first :: rest) first = xs.map (fun _ => .fin 0) := by
    simp only [shown, if_true, List.map_cons, List.headD_cons, hx]
    rw [List.zipWith_map, List.zipWith_self]
    simp [absDiff]
  refine ⟨e, ?_⟩
  rw [e, List.map_inj_left]
  refine forall₂_congr fun x _ => ?_
  simp only [absDiff, FV.fin.injEq]
  rw [eq_comm, abs_eq_zero, sub_eq_zero]

/-! ## Files of the relaxation scripts -/

theorem loadSweep_mem {ref : PyDict Attr} {Q : PyStr} {sweep : List PyStr} {dir : List (PyStr × Option H5File)} {runs : List Run} (h : loadSweep ref Q sweep dir = .ok runs) {r : Run}
    (hr : r ∈ runs) : ∃ name f, (name, some f) ∈ dir ∧ f.config = some r.cfg ∧ f.data.get? Q = some r.force := by
  induction dir generalizing runs with
  | nil => unfold loadSweep at h; obtain rfl := Except.ok.inj h; cases hr
  | cons e rest ih =>
    obtain ⟨name, f⟩ := e
    have up : (∃ name f, (name, some f) ∈ rest ∧ f.config = some r.cfg ∧ f.data.get? Q = some r.force) →
        ∃ name' f', (name', some f') ∈ (name, f) :: rest ∧ f'.config = some r.cfg ∧ f'.data.get? Q = some r.force :=
      fun ⟨n, g, a, b⟩ => ⟨n, g, List.mem_cons_of_mem _ a, b⟩
    unfold loadSweep at h
    split at h
    · exact up (ih h hr)
    · split at h
      · exact up (ih h hr)
      · rename_i tr cfg it hrd
        split at h
        · cases h
        · split at h
          · cases h
          · rename_i ds _ rs hrs
            have hm : r = ⟨cfg, tr, it⟩ ∨ r ∈ rs := by
              rw [← Except.ok.inj h] at hr
              split at hr
              · exact List.mem_cons.mp hr
              · exact .inr hr
            rcases hm with rfl | hm
            · unfold readRun at hrd
              split at hrd
              · cases hrd
              · rename_i f'
                split at hrd
                · rename_i tr' cfg' e1 e2
                  split at hrd
                  · obtain ⟨it', -, he⟩ := Option.map_eq_some_iff.mp hrd
                    have he1 := (Prod.mk.inj he).1
                    have he2 := (Prod.mk.inj (Prod.mk.inj he).2).1
                    exact ⟨name, f', List.mem_cons_self, e2.trans (congrArg some he2), e1.trans (congrArg some he1)⟩
                  · cases hrd
                · cases hrd
            · exact up (ih hrs hm)

theorem numbers_none {c : PyDict Attr} {k : PyStr} (h : c.get? k = none) : (numbers c).get? k = none := by
  induction c with
  | nil => rfl
  | cons e rest ih =>
    obtain ⟨k', v⟩ := e
    rw [PyDict.get?_cons] at h
    split at h
    · cases h
    · rename_i hk
      unfold numbers
      rw [List.filterMap_cons]
      split
      · exact ih h
      · rename_i b hb
        dsimp only at hb
        split at hb
        · obtain rfl := Option.some.inj hb
          rw [PyDict.get?_cons, if_neg hk]
          exact ih h
        · cases hb

/-- The script up to the first figure. -/
theorem script_fails (ref : PyDict Attr) (dir : List (PyStr × Option H5File))
    (h : ∀ runs, sweepRuns ref dir "force_trace" = .ok runs → ∀ r ∈ runs, runStep r = some (1 / 10 ^ 6) → (numbers r.cfg).get? "dt_max".toList = none) :
    ∃ e, forceMultiplot ref dir = ([], some e) := by
  classical
  have key : ∃ e l, quantityFigures ref dir ("force_trace", false) = .error e :: l := by
    unfold quantityFigures
    rcases hr : loadSweep ref "force_trace".toList ["dt_max".toList, "n_r".toList, "n_chi".toList, "dt".toList] dir with e | runs
    · exact ⟨e, [], rfl⟩
    dsimp only
    obtain ⟨X, hs⟩ : ∃ X, X = sweepTraces "force_trace" false (runs.map (·.force)) := ⟨_, rfl⟩
    rw [← hs]
    cases X with
    | error e => exact ⟨e, [], rfl⟩
    | ok ts =>
      have hq : (("force_trace", false) : String × Bool) ∈ quantities := List.mem_cons_self
      obtain ⟨h2, -, rfl⟩ := (sweepTraces_ok (q := ("force_trace", false)) hq).mp hs.symm
      dsimp only
      have := quantity_runs ("force_trace", false) runs
      rw [this]
      unfold stepSizes
      rw [List.map_cons]
      obtain ⟨Y, hY⟩ : ∃ Y, Y = stepFigure "force_trace" (runs.map fun r => (numbers r.cfg, shown ("force_trace", false) runs r, sweepIters (shown ("force_trace", false) runs r)
        (saveEvery r.cfg))) (1 / 10 ^ 6, "1e-06") := ⟨_, rfl⟩
      rw [← hY]
      cases Y with
      | error e => exact ⟨e, _, rfl⟩
      | ok b =>
        obtain ⟨h3, fig, -, hfig⟩ := (stepFigure_ok (q := ("force_trace", false))).mp hY.symm
        obtain ⟨k1, k2, -, -⟩ := (C114_domain _ _ _ _ _ _).mp ⟨fig, hfig⟩
        obtain ⟨hne, -⟩ := k2 _ (List.mem_singleton_self _)
        obtain ⟨c, hc⟩ := List.exists_mem_of_ne_nil _ hne
        have := (k1 c hc).2
        obtain ⟨r, hr', rfl⟩ := List.mem_map.mp hc
        rw [List.mem_filter, decide_eq_true_eq] at hr'
        rw [h runs hr r hr'.1 hr'.2] at this
        cases this
  obtain ⟨e, l, hk⟩ := key
  refine ⟨e, ?_⟩
  unfold forceMultiplot quantities
  rw [List.flatMap_cons, hk]
  rfl

theorem preset_dtmax (u : PyStr) : (((devicePresets realLits).get? u).getD []).get? "dt_max".toList = none := by
  by_cases h1 : u = "ITER".toList
  · subst h1; rw [devicePresets, get?_hit rfl]; rfl
  by_cases h2 : u = "NSTX".toList
  · rw [devicePresets, get?_miss h1, get?_hit h2]; rfl
  by_cases h3 : u = "SPHERO".toList
  · rw [devicePresets, get?_miss h1, get?_miss h2, get?_hit h3]; rfl
  by_cases h4 : u = "ROT_ELL".toList
  · rw [devicePresets, get?_miss h1, get?_miss h2, get?_miss h3, get?_hit h4]; rfl
  by_cases h5 : u = "HELIX".toList
  · rw [devicePresets, get?_miss h1, get?_miss h2, get?_miss h3, get?_miss h4, get?_hit h5]; rfl
  rw [devicePresets, get?_miss h1, get?_miss h2, get?_miss h3, get?_miss h4, get?_miss h5]
  rfl

section
variable (lib : NumLib) (P : PyChars ℝ) (zero : ℝ → Bool)

theorem selected_dtmax (params : PyDict (ArgVal ℝ)) : (selectedPreset P (devicePresets realLits) params).get? "dt_max".toList = none := by
  unfold selectedPreset
  rcases params.get? "device".toList with _ | dev
  · rfl
  cases dev with
  | str s =>
    dsimp only
    split
    · rfl
    · exact preset_dtmax _
  | _ => rfl

theorem final_dtmax {params config c : PyDict (ArgVal ℝ)} (hp : (params.map (·.1)).Nodup) (hn : config.get? "dt_max".toList = none)
    (h : updateConfig P zero (devicePresets realLits) params config = .ok c) : c.get? "dt_max".toList = none := by
  rw [C56_precedence P zero _ params config c hp (selected_nodup P params) h, hn, selected_dtmax]
  simp

theorem wrote_dtmax {W : World} {params c : PyDict (ArgVal ℝ)} (hp : (params.map (·.1)).Nodup) {dir ext : String} {f : RunFile} (h : Wrote lib W P zero params dir ext c f) :
    f.config.get? "dt_max".toList = none := by
  obtain ⟨-, -, -, -, -, -, e⟩ := C108_name lib W P zero h
  rw [e]
  rcases h with ⟨a, -, -, hc, -⟩ | ⟨-, -, hc, -⟩ | ⟨-, -, hc, -⟩
  · unfold solovevConfig at hc
    rcases hu : updateConfig P zero (devicePresets realLits) params (defaultConfig realLits) with e | c0
    · rw [hu] at hc; cases hc
    rw [hu] at hc
    obtain rfl := Except.ok.inj hc
    have := final_dtmax P zero hp (by rfl) hu
    cases a
    · exact this
    · rw [if_pos rfl, PyDict.get?_update _ _ (by decide), this]
      rfl
  · exact final_dtmax P zero hp (by rfl) hc
  · exact final_dtmax P zero hp (by rfl) hc

theorem get?_asH5 {d : PyDict (ArgVal ℝ)} {k : PyStr} : PyDict.get? (d.map fun e => (e.1, attrOf e.2)) k = (d.get? k).map attrOf := by
  induction d with
  | nil => rfl
  | cons e rest ih =>
    rw [List.map_cons, PyDict.get?_cons, PyDict.get?_cons]
    dsimp only
    split
    · rfl
    · exact ih

/-- **C114 (finding)** the script colours by `dt_max`, which no relaxation script stores: on any directory of files written by runs, whatever their parameters and their number, and whatever the
reference file is, it writes no figure and ends with an error. -/
theorem C114_runs (ref : PyDict Attr) (dir : List (PyStr × Option H5File))
    (h : ∀ name f, (name, some f) ∈ dir → ∃ W params script ext c g, (params.map (·.1)).Nodup ∧ Wrote lib W P zero params script ext c g ∧ f = asH5 g) :
    ∃ e, forceMultiplot ref dir = ([], some e) := by
  refine script_fails ref dir fun runs hr r hm _ => numbers_none ?_
  obtain ⟨name, f, hf, hc, -⟩ := loadSweep_mem hr hm
  obtain ⟨W, params, script, ext, c, g, hp, hw, rfl⟩ := h name f hf
  rw [← Option.some.inj hc, get?_asH5, wrote_dtmax lib P zero hp hw]
  rfl

end

/-- **C114 (finding)** `energy_diff_trace` is not among the datasets that are stored: without it in the files, the script never gets to its end, and never draws the Picard residuals, the Picard
iterations or the step sizes. -/
theorem C114_energy (ref : PyDict Attr) (dir : List (PyStr × Option H5File)) (h : ∀ name f, (name, some f) ∈ dir → f.data.get? "energy_diff_trace".toList = none) :
    (forceMultiplot ref dir).2 ≠ none ∧
    ∀ file fig, (file, fig) ∈ (forceMultiplot ref dir).1 → ∃ q ∈ ["force_trace", "helicity_trace"], ∃ dt ∈ stepSizes, file = figureFile q dt.2 := by
  have hno : ∀ runs, sweepRuns ref dir "energy_diff_trace" = .ok runs → runs = [] := by
    intro runs hr
    by_contra hne
    obtain ⟨r, hm⟩ := List.exists_mem_of_ne_nil _ hne
    obtain ⟨name, f, hf, -, hd⟩ := loadSweep_mem hr hm
    rw [h name f hf] at hd
    cases hd
  have hbad : ∀ b, Except.ok b ∉ quantityFigures ref dir ("energy_diff_trace", false) := by
    intro b hb
    have hm := hb
    unfold quantityFigures at hm
    rcases hr : loadSweep ref "energy_diff_trace".toList ["dt_max".toList, "n_r".toList, "n_chi".toList, "dt".toList] dir with e | runs
    · rw [hr] at hm; cases List.mem_singleton.mp hm
    obtain rfl := hno runs hr
    rw [hr] at hm
    have hq : (("energy_diff_trace", false) : String × Bool) ∈ quantities := by decide
    have hs := (sweepTraces_ok (q := ("energy_diff_trace", false)) (runs := []) hq).mpr ⟨by simp, by simp, rfl⟩
    dsimp only at hm
    dsimp only at hs
    rw [hs] at hm
    dsimp only at hm
    obtain ⟨dt, -, hm⟩ := List.mem_map.mp hm
    obtain ⟨-, fig, -, hfig⟩ := (stepFigure_ok (q := ("energy_diff_trace", false)) (runs := [])).mp hm
    obtain ⟨-, k2, -, -⟩ := (C114_domain _ _ _ _ _ _).mp ⟨fig, hfig⟩
    exact (k2 _ (List.mem_singleton_self _)).1 rfl
  have hne : quantityFigures ref dir ("energy_diff_trace", false) ≠ [] := by
    unfold quantityFigures
    rcases loadSweep ref "energy_diff_trace".toList ["dt_max".toList, "n_r".toList, "n_chi".toList, "dt".toList] dir with e | runs
    · simp
    · dsimp only
      generalize sweepTraces "energy_diff_trace" false (runs.map (·.force)) = X
      cases X with
      | error e => simp
      | ok ts => simp [stepSizes]
  obtain ⟨e, l, he⟩ : ∃ e l, quantityFigures ref dir ("energy_diff_trace", false) = .error e :: l := by
    rcases hl : quantityFigures ref dir ("energy_diff_trace", false) with _ | ⟨a, l⟩
    · exact absurd hl hne
    · cases a with
      | error e => exact ⟨e, l, rfl⟩
      | ok b => exact absurd (hl ▸ List.mem_cons_self) (hbad b)
  have happ : ∀ (A B : List (Except String (PyStr × Figure ℝ))), (untilError (A ++ .error e :: B)).2 ≠ none ∧ ∀ b, b ∈ (untilError (A ++ .error e :: B)).1 → .ok b ∈ A := by
    intro A B
    induction A with
    | nil => exact ⟨by simp [untilError], by simp [untilError]⟩
    | cons a A ih =>
      cases a with
      | error e' => exact ⟨by simp [untilError], by simp [untilError]⟩
      | ok x =>
        refine ⟨by simpa [untilError] using ih.1, fun b hb => ?_⟩
        rcases List.mem_cons.mp (show b ∈ x :: (untilError (A ++ .error e :: B)).1 from hb) with rfl | hb
        · exact List.mem_cons_self
        · exact List.mem_cons_of_mem _ (ih.2 b hb)
  have hlist : quantities.flatMap (quantityFigures ref dir) =
      (quantityFigures ref dir ("force_trace", false) ++ quantityFigures ref dir ("helicity_trace", true)) ++
        .error e :: (l ++ ([("picard_errors", false), ("picard_iterations", false), ("timesteps", false)] : List (String × Bool)).flatMap (quantityFigures ref dir)) := by
    unfold quantities
    simp only [List.flatMap_cons, he, List.append_assoc, List.cons_append]
  unfold forceMultiplot
  rw [hlist]
  refine ⟨(happ _ _).1, fun file fig hb => ?_⟩
  have hfile : ∀ q : String × Bool, .ok (file, fig) ∈ quantityFigures ref dir q → ∃ dt ∈ stepSizes, file = figureFile q.1 dt.2 := by
    intro q hm
    unfold quantityFigures at hm
    generalize loadSweep ref q.1.toList ["dt_max".toList, "n_r".toList, "n_chi".toList, "dt".toList] dir = R at hm
    rcases R with e | runs
    · cases List.mem_singleton.mp hm
    dsimp only at hm
    generalize sweepTraces q.1 q.2 (runs.map (·.force)) = X at hm
    rcases X with e | ts
    · cases List.mem_singleton.mp hm
    obtain ⟨dt, hdt, hm⟩ := List.mem_map.mp hm
    refine ⟨dt, hdt, ?_⟩
    unfold stepFigure at hm
    split at hm
    · cases hm
    · split at hm
      · cases hm
      · exact (Prod.mk.inj (Except.ok.inj hm)).1.symm
  rcases List.mem_append.mp ((happ _ _).2 _ hb) with hm | hm
  · obtain ⟨dt, h1, h2⟩ := hfile _ hm
    exact ⟨_, List.mem_cons_self, dt, h1, h2⟩
  · obtain ⟨dt, h1, h2⟩ := hfile _ hm
    exact ⟨_, List.mem_cons_of_mem _ List.mem_cons_self, dt, h1, h2⟩

/-! ## The abscissae -/

section
variable {V H : Type} (cfg : RelaxConfig) (env : RelaxEnv V H) (start : ℝ)

/-- **C114 (finding)** a run all of whose steps were accepted: the abscissae `save_every * k` at which the script draws its trace are the iterations at which it was recorded exactly if
`save_every` divides the number of iterations. (The last entry is recorded at the last iteration.) -/
theorem C114_iterations_iff (s : State V H) (hs : 0 < cfg.saveEvery) (hm : 0 < cfg.maxit) (hacc : ∀ i, 1 ≤ i → i ≤ cfg.maxit → Accepted cfg env start s (emptyTrace V) i) (t : List FV)
    (ht : PyDict.get? (traceDatasets (relaxAfter cfg env start s (emptyTrace V) cfg.maxit).trace) "force_trace".toList = some t) :
    (PyDict.get? (traceDatasets (relaxAfter cfg env start s (emptyTrace V) cfg.maxit).trace) "iterations".toList =
      some ((sweepIters t cfg.saveEvery).map .fin)) ↔ cfg.saveEvery ∣ cfg.maxit := by
  classical
  obtain ⟨d1, d2, -⟩ := C58_dataset_contents cfg env start s cfg.maxit
  dsimp only at d1 d2
  rw [ht] at d2
  rw [d1]
  obtain rfl := Option.some.inj d2
  have hL : savedIterations cfg env start s (emptyTrace V) cfg.maxit = (List.range' 1 cfg.maxit).filter fun i => decide (i % cfg.saveEvery = 0 ∨ i = cfg.maxit) := by
    unfold savedIterations
    apply List.filter_congr
    intro i hi
    rw [List.mem_range'_1] at hi
    have := hacc i hi.1 (by omega)
    simp [this]
  obtain ⟨L, hLe⟩ : ∃ L, L = savedIterations cfg env start s (emptyTrace V) cfg.maxit := ⟨_, rfl⟩
  rw [← hLe] at hL ⊢
  have hmem : ∀ i, i ∈ L ↔ 1 ≤ i ∧ i ≤ cfg.maxit ∧ (cfg.saveEvery ∣ i ∨ i = cfg.maxit) := by
    intro i
    rw [hL, List.mem_filter, List.mem_range'_1, decide_eq_true_eq, Nat.dvd_iff_mod_eq_zero]
    constructor
    · rintro ⟨h1, h2⟩; exact ⟨h1.1, by omega, h2⟩
    · rintro ⟨h1, h2, h3⟩; exact ⟨⟨h1, by omega⟩, h3⟩
  have hsort : L.Pairwise (· < ·) := by
    rw [hL]
    exact List.Pairwise.filter _ List.pairwise_lt_range'
  have hx : (sweepIters ((env.step cfg s).forceNorm :: L.map fun i => (relaxAfter cfg env start s (emptyTrace V) i).state.forceNorm) cfg.saveEvery).map FV.fin =
      .fin 0 :: (List.range L.length).map fun k : Nat => FV.fin ((cfg.saveEvery * (k + 1) : Nat) : ℝ) := by
    unfold sweepIters
    simp only [List.length_cons, List.length_map, List.range_succ_eq_map, List.map_cons, List.map_map]
    congr 1
    · simp
    · apply List.map_congr_left
      intro k _
      simp
  rw [hx]
  have hinj : (some (FV.fin 0 :: L.map fun i : Nat => FV.fin (i : ℝ)) = some (.fin 0 :: (List.range L.length).map fun k : Nat => FV.fin ((cfg.saveEvery * (k + 1) : Nat) : ℝ))) ↔
      L = (List.range L.length).map fun k : Nat => cfg.saveEvery * (k + 1) := by
    constructor
    · intro h
      have h' := (List.cons.inj (Option.some.inj h)).2
      refine List.ext_getElem (by simp) fun n h1 h2 => ?_
      have := congrArg (fun l => l[n]?) h'
      simp only [List.getElem?_map, List.getElem?_range h1, List.getElem?_eq_getElem h1, Option.map_some, Option.some.injEq, FV.fin.injEq, Nat.cast_inj] at this
      simpa using this
    · intro h
      have e : (L.map fun i : Nat => FV.fin (i : ℝ)) = (List.range L.length).map fun k : Nat => FV.fin ((cfg.saveEvery * (k + 1) : Nat) : ℝ) := by
        conv_lhs => rw [h]
        rw [List.map_map]
        rfl
      rw [e]
  rw [hinj]
  constructor
  · intro h
    have : cfg.maxit ∈ L := (hmem _).mpr ⟨hm, le_refl _, .inr rfl⟩
    rw [h] at this
    obtain ⟨k, -, hk⟩ := List.mem_map.mp this
    exact ⟨k + 1, hk.symm⟩
  · rintro ⟨c, hc⟩
    have hM : L = (List.range c).map fun k : Nat => cfg.saveEvery * (k + 1) := by
      refine List.Perm.eq_of_pairwise' (r := (· < ·)) hsort ?_ ?_
      · rw [List.pairwise_map]
        exact List.pairwise_lt_range.imp fun h => Nat.mul_lt_mul_of_pos_left (by omega) hs
      · refine (List.perm_ext_iff_of_nodup (hsort.imp fun h => ne_of_lt h) ?_).mpr fun i => ?_
        · refine List.Nodup.map (fun a b h => ?_) List.nodup_range
          have := Nat.eq_of_mul_eq_mul_left hs h
          omega
        · rw [hmem, List.mem_map]
          constructor
          · rintro ⟨h1, h2, h3⟩
            obtain ⟨d, rfl⟩ : cfg.saveEvery ∣ i := h3.elim id fun h => by rw [h, hc]; exact ⟨c, rfl⟩
            have hd : 0 < d := Nat.pos_of_mul_pos_left (by omega : 0 < cfg.saveEvery * d)
            rw [hc] at h2
            have := Nat.le_of_mul_le_mul_left h2 hs
            exact ⟨d - 1, List.mem_range.mpr (by omega), by rw [Nat.sub_add_cancel hd]⟩
          · rintro ⟨k, hk, rfl⟩
            rw [List.mem_range] at hk
            refine ⟨Nat.mul_pos hs (by omega), ?_, .inl ⟨_, rfl⟩⟩
            rw [hc]
            exact Nat.mul_le_mul_left _ (by omega)
    have hlen : L.length = c := by rw [hM]; simp
    rw [hlen]
    exact hM

end

/-! ## Cases -/

/-- Three runs: two values of each parameter. -/
def threeRuns : List (PyDict Nat) :=
  [[("n_r".toList, 6), ("dt_max".toList, 1), ("dt".toList, 9)], [("n_r".toList, 8), ("dt_max".toList, 1), ("dt".toList, 9)], [("n_r".toList, 8), ("dt_max".toList, 2), ("dt".toList, 9)]]

theorem threeRuns_ok : ∃ fig, plotTraces threeRuns [[.fin 1, .fin 2], [.nan, .fin 0], [.fin 5, .fin 5]] [[0, 1], [0, 1], [0, 1]] ["n_r".toList, "dt_max".toList] (some ["dt".toList]) = .ok fig := by
  refine (C114_domain _ _ _ _ _ _).mpr ⟨by decide, ?_, by decide, ?_⟩
  · intro k hk
    obtain rfl := List.mem_singleton.mp hk
    exact ⟨by decide, 9, by decide⟩
  · intro e he
    simp only [threeRuns, List.zip_cons_cons, List.zip_nil_right, List.mem_cons, List.not_mem_nil, or_false] at he
    rcases he with rfl | rfl | rfl <;> rfl

example := C114_curves threeRuns_ok.choose_spec
example := C114_legend threeRuns_ok.choose_spec
example := (C114_distinguished_iff threeRuns_ok.choose_spec).2.mpr (by decide)
/-- With six values of the second parameter two of them look the same. -/
example {fig : Figure Nat} {traces : List (List FV)} {iters : List (List ℝ)}
    (h : plotTraces ((List.range 6).map fun n : Nat => [("n_r".toList, 6), ("dt_max".toList, n)]) traces iters ["n_r".toList, "dt_max".toList] none = .ok fig) :
    ∃ i v w, v ≠ w ∧ LegendEntry.style i v ∈ fig.legend ∧ LegendEntry.style i w ∈ fig.legend := by
  by_contra hc
  push Not at hc
  have := (C114_distinguished_iff h).2.mp fun i v w hv hw => by
    by_contra hne
    exact hc i v w hne hv hw
  exact absurd this (by decide)

/-- A file of a sweep with the step size `dt`, with the given lengths of the traces. -/
noncomputable def sweepFile (dt : ℝ) (n : Nat) : H5File :=
  ⟨quantities.map fun q => (q.1.toList, (List.range n).map fun k : Nat => FV.fin k),
    some [("maxit".toList, .int 4), ("save_every".toList, .int 2), ("dt".toList, .num (.fin dt)), ("n_r".toList, .int 6), ("dt_max".toList, .num (.fin 1))]⟩

theorem sweepFile_load (q : String × Bool) (hq : q ∈ quantities) (n : Nat) (cfg0 : PyDict Attr) (h0 : (sweepFile 0 0).config = some cfg0) (dts : List ℝ) :
    ∃ runs, loadSweep cfg0 q.1.toList ["dt_max".toList, "n_r".toList, "n_chi".toList, "dt".toList] (dts.map fun dt => ("a.h5".toList, some (sweepFile dt n))) = .ok runs ∧
      List.Forall₂ (fun dt r => some r.cfg = (sweepFile dt n).config ∧ r.force = (List.range n).map fun k : Nat => FV.fin k) dts runs := by
  obtain rfl := Option.some.inj h0
  have hne : ∀ m : Int, Attr.ne (some (.int m)) (.int m) = some false := by
    intro m
    unfold Attr.ne
    simp only [Option.some.injEq, Bool.not_eq_false', decide_eq_true_eq]
    exact ⟨.fin m, .fin m, rfl, rfl, rfl⟩
  induction dts with
  | nil => exact ⟨[], rfl, .nil⟩
  | cons dt rest ih =>
    obtain ⟨runs, h1, h2⟩ := ih
    have hread : readRun q.1.toList (some (sweepFile dt n)) = some ((List.range n).map (fun k : Nat => FV.fin k), ((sweepFile dt n).config).getD [], [0, 2]) := by
      have hd : (sweepFile dt n).data.get? q.1.toList = some ((List.range n).map fun k : Nat => FV.fin k) := by
        simp only [quantities, List.mem_cons, List.not_mem_nil, or_false] at hq
        rcases hq with rfl | rfl | rfl | rfl | rfl | rfl <;> rfl
      unfold readRun
      dsimp only
      rw [hd]
      rfl
    have hdiff : unexpectedDiffs (((sweepFile 0 0).config).getD []) ["run_name".toList, "dt_max".toList, "n_r".toList, "n_chi".toList, "dt".toList] (((sweepFile dt n).config).getD []) = some [] := by
      have g1 : PyDict.get? (((sweepFile 0 0).config).getD []) "maxit".toList = some (.int 4) := rfl
      have g2 : PyDict.get? (((sweepFile 0 0).config).getD []) "save_every".toList = some (.int 2) := rfl
      have g3 : PyDict.get? (((sweepFile 0 0).config).getD []) "dt".toList = some (.num (.fin 0)) := rfl
      have g4 : PyDict.get? (((sweepFile 0 0).config).getD []) "n_r".toList = some (.int 6) := rfl
      have g5 : PyDict.get? (((sweepFile 0 0).config).getD []) "dt_max".toList = some (.num (.fin 1)) := rfl
      have hc : ((sweepFile dt n).config).getD [] =
        [("maxit".toList, .int 4), ("save_every".toList, .int 2), ("dt".toList, .num (.fin dt)), ("n_r".toList, .int 6), ("dt_max".toList, .num (.fin 1))] := rfl
      rw [hc]
      unfold unexpectedDiffs unexpectedDiffs unexpectedDiffs unexpectedDiffs unexpectedDiffs unexpectedDiffs
      rw [g1, g2, g3, g4, g5, hne, hne, hne]
      have hnum : ∀ x y : ℝ, ∃ b, Attr.ne (some (.num (.fin x))) (.num (.fin y)) = some b := fun x y => ⟨_, rfl⟩
      obtain ⟨b1, hb1⟩ := hnum 0 dt
      obtain ⟨b2, hb2⟩ := hnum 1 1
      rw [hb1, hb2]
      simp
    refine ⟨⟨((sweepFile dt n).config).getD [], (List.range n).map fun k : Nat => FV.fin k, [0, 2]⟩ :: runs, ?_, .cons ⟨rfl, rfl⟩ h2⟩
    rw [List.map_cons]
    unfold loadSweep
    rw [if_neg (by decide), hread]
    dsimp only
    have hdiff' := hdiff
    rw [show (["run_name".toList, "dt_max".toList, "n_r".toList, "n_chi".toList, "dt".toList] : List PyStr) = "run_name".toList :: ["dt_max".toList, "n_r".toList, "n_chi".toList, "dt".toList]
      from rfl] at hdiff'
    have e0 : ((sweepFile 0 0).config).getD [] =
        [("maxit".toList, .int 4), ("save_every".toList, .int 2), ("dt".toList, .num (.fin 0)), ("n_r".toList, .int 6), ("dt_max".toList, .num (.fin 1))] := rfl
    rw [e0] at hdiff'
    rw [hdiff', h1]
    rfl

/-- The script gets to its end on a directory with one such file for each step size. -/
theorem script_case (cfg0 : PyDict Attr) (h0 : (sweepFile 0 0).config = some cfg0) :
    (forceMultiplot cfg0 ([1 / 10 ^ 6, 1 / 10 ^ 5, 1 / 10 ^ 4].map fun dt : ℝ => ("a.h5".toList, some (sweepFile dt 3)))).2 = none := by
  refine (C114_script_iff _ _).mpr fun q hq => ?_
  obtain ⟨runs, h1, h2⟩ := sweepFile_load q hq 3 cfg0 h0 [1 / 10 ^ 6, 1 / 10 ^ 5, 1 / 10 ^ 4]
  obtain ⟨r1, l1, k1, hF, rfl⟩ := List.forall₂_cons_left_iff.mp h2
  obtain ⟨r2, l2, k2, hF2, rfl⟩ := List.forall₂_cons_left_iff.mp hF
  obtain ⟨r3, l3, k3, hF3, rfl⟩ := List.forall₂_cons_left_iff.mp hF2
  obtain rfl := List.forall₂_nil_left_iff.mp hF3
  have hstep : ∀ (r : Run) (dt : ℝ), some r.cfg = (sweepFile dt 3).config → runStep r = some dt ∧ (numbers r.cfg).get? "n_r".toList = some 6 ∧ (numbers r.cfg).get? "dt_max".toList = some 1 := by
    intro r dt h
    have e : r.cfg = [("maxit".toList, .int 4), ("save_every".toList, .int 2), ("dt".toList, .num (.fin dt)), ("n_r".toList, .int 6), ("dt_max".toList, .num (.fin 1))] := Option.some.inj h
    unfold runStep
    rw [e]
    refine ⟨rfl, ?_, rfl⟩
    show some ((6 : Int) : ℝ) = _
    norm_num
  have s1 := hstep _ _ k1.1
  have s2 := hstep _ _ k2.1
  have s3 := hstep _ _ k3.1
  have hmem : ∀ r ∈ [r1, r2, r3], r = r1 ∨ r = r2 ∨ r = r3 := by simp
  refine ⟨_, h1, ?_, ?_, ?_⟩
  · intro r hr r' hr'
    rcases hmem r hr with rfl | rfl | rfl <;> rcases hmem r' hr' with rfl | rfl | rfl <;> simp only [k1.2, k2.2, k3.2]
  · intro r hr
    rcases hmem r hr with rfl | rfl | rfl
    · rw [s1.1]; rfl
    · rw [s2.1]; rfl
    · rw [s3.1]; rfl
  · intro dt hdt
    refine ⟨?_, fun r hr _ => ?_⟩
    · simp only [stepSizes, List.mem_cons, List.not_mem_nil, or_false] at hdt
      rcases hdt with rfl | rfl | rfl
      · exact ⟨r1, by simp, s1.1⟩
      · exact ⟨r2, by simp, s2.1⟩
      · exact ⟨r3, by simp, s3.1⟩
    · rcases hmem r hr with rfl | rfl | rfl
      · rw [s1.2.1, s1.2.2]; exact ⟨rfl, rfl⟩
      · rw [s2.2.1, s2.2.2]; exact ⟨rfl, rfl⟩
      · rw [s3.2.1, s3.2.2]; exact ⟨rfl, rfl⟩

example := C114_script_all _ _ (script_case _ rfl)
example := C114_file_names _ _ (script_case _ rfl)
example (rest : List Run) (cfg : PyDict Attr) := C114_helicity_first ⟨cfg, [.fin 1, .fin 3], [0, 2]⟩ rest [1, 3] rfl
example (cfg : PyDict Attr) := C114_helicity [⟨cfg, [.fin 1, .fin 3], [0, 2]⟩, ⟨cfg, [.fin 2, .fin 2], [0, 2]⟩] _ ⟨cfg, [.fin 2, .fin 2], [0, 2]⟩ _ rfl rfl
example := C114_runs someLib asciiReal (fun _ => false) [] [("a.h5".toList, some (asH5 (iter_case someWorld).choose))] fun name f h => by
  obtain ⟨-, h⟩ := Prod.mk.inj (List.mem_singleton.mp h)
  obtain rfl := Option.some.inj h
  obtain ⟨c, -, hc, -⟩ := iterMain_ok _ _ _ _ (iter_case someWorld).choose_spec.choose_spec.1
  exact ⟨someWorld, _, _, _, _, _, by decide, .inr (.inl ⟨rfl, rfl, hc, (iter_case someWorld).choose_spec.choose_spec.1⟩), rfl⟩
example (c : PyDict Attr) := C114_energy [] [("a.h5".toList, some ⟨[("force_trace".toList, [.fin 1])], some c⟩)] fun name f h => by
  obtain ⟨-, h⟩ := Prod.mk.inj (List.mem_singleton.mp h)
  obtain rfl := Option.some.inj h
  rfl

/-- A run of one iteration, recorded every `n` iterations. -/
example (n : Nat) (hn : 0 < n) := C114_iterations_iff { caseCfg 4 with maxit := 1, saveEvery := n } (caseEnv 0) 0 caseState hn Nat.one_pos (fun i h1 h2 => by
    obtain rfl : i = 1 := by have : i ≤ 1 := h2; omega
    exact ⟨rfl, (C49_accepted_iff (caseCfg 4) _).mp (case_accepted (r := 0) (ftol := 4) (by norm_num) _)⟩)

end Props
end Mrx
