import Verif.Model.Figures
import Verif.Proofs.Dict
import Verif.Props.Grids
import Verif.Props.Mappings

/-!
# C103: coloured cuts and contours
-/

set_option linter.unusedVariables false
set_option linter.unusedSectionVars false

namespace Mrx.Props
open Mrx Figures Matrix

theorem minOf_le {l : List ℝ} {x : ℝ} (hx : x ∈ l) : minOf l ≤ x := by
  unfold minOf
  generalize l.headD 0 = a
  induction l with
  | nil => simp at hx
  | cons y l ih =>
    rw [List.foldr_cons]
    rcases List.mem_cons.1 hx with rfl | h
    · exact min_le_left _ _
    · exact (min_le_right _ _).trans (ih h)

theorem le_maxOf {l : List ℝ} {x : ℝ} (hx : x ∈ l) : x ≤ maxOf l := by
  unfold maxOf
  generalize l.headD 0 = a
  induction l with
  | nil => simp at hx
  | cons y l ih =>
    rw [List.foldr_cons]
    rcases List.mem_cons.1 hx with rfl | h
    · exact le_max_left _ _
    · exact (ih h).trans (le_max_right _ _)

theorem minOf_mem {l : List ℝ} (hl : l ≠ []) : minOf l ∈ l := by
  have key : ∀ (l : List ℝ) (a : ℝ), l.foldr min a ∈ a :: l := by
    intro l a
    induction l with
    | nil => simp
    | cons y l ih =>
      rw [List.foldr_cons]
      rcases min_choice y (l.foldr min a) with h | h <;> rw [h]
      · simp
      · rcases List.mem_cons.1 ih with h | h
        · rw [h]; simp
        · simp [h]
  obtain ⟨y, l, rfl⟩ := List.exists_cons_of_ne_nil hl
  have := key (y :: l) y
  unfold minOf
  rw [List.headD_cons]
  rcases List.mem_cons.1 this with h | h
  · rw [h]; simp
  · exact h

theorem maxOf_mem {l : List ℝ} (hl : l ≠ []) : maxOf l ∈ l := by
  have key : ∀ (l : List ℝ) (a : ℝ), l.foldr max a ∈ a :: l := by
    intro l a
    induction l with
    | nil => simp
    | cons y l ih =>
      rw [List.foldr_cons]
      rcases max_choice y (l.foldr max a) with h | h <;> rw [h]
      · simp
      · rcases List.mem_cons.1 ih with h | h
        · rw [h]; simp
        · simp [h]
  obtain ⟨y, l, rfl⟩ := List.exists_cons_of_ne_nil hl
  have := key (y :: l) y
  unfold maxOf
  rw [List.headD_cons]
  rcases List.mem_cons.1 this with h | h
  · rw [h]; simp
  · exact h

theorem minOf_le_maxOf (l : List ℝ) : minOf l ≤ maxOf l := by
  by_cases h : l = []
  · rw [h]; simp [minOf, maxOf]
  · exact le_maxOf (minOf_mem h)

theorem min_eq_max_iff {l : List ℝ} (hl : l ≠ []) : maxOf l = minOf l ↔ ∀ x ∈ l, ∀ y ∈ l, x = y := by
  constructor
  · intro h x hx y hy
    have := minOf_le hx; have := le_maxOf hx; have := minOf_le hy; have := le_maxOf hy
    linarith
  · intro h
    exact h _ (maxOf_mem hl) _ (minOf_mem hl)

/-- **C103** the colours of `plot_torus` mean the same on every cut: they lie between 0 and 1, and a vertex has a larger colour number than another, on the
same or on another cut, exactly when its value is larger; unless the function is constant on the cuts (then every vertex has colour 0) the
whole colour range is used. -/
theorem C103_torus_colours (vals : List (List ℝ)) (a b : List ℝ) (ha : a ∈ vals) (hb : b ∈ vals) (v w : ℝ) (hv : v ∈ a) (hw : w ∈ b) :
    0 ≤ torusColour vals v ∧ torusColour vals v ≤ 1 ∧ (torusColour vals v < torusColour vals w ↔ v < w) ∧
    (torusColour vals v = torusColour vals w ↔ v = w) ∧
    ((∀ c ∈ vals, ∀ x ∈ c, x = v) → torusColour vals v = 0) ∧
    (¬ (∀ c ∈ vals, ∀ x ∈ c, x = v) → ∃ c ∈ vals, ∃ x ∈ c, ∃ d ∈ vals, ∃ y ∈ d, torusColour vals x = 0 ∧ torusColour vals y = 1) := by
  have mv : v ∈ vals.flatten := List.mem_flatten.2 ⟨a, ha, hv⟩
  have mw : w ∈ vals.flatten := List.mem_flatten.2 ⟨b, hb, hw⟩
  have hne : vals.flatten ≠ [] := List.ne_nil_of_mem mv
  obtain ⟨lo, hlo⟩ : ∃ lo, lo = minOf vals.flatten := ⟨_, rfl⟩
  obtain ⟨hi, hhi⟩ : ∃ hi, hi = if maxOf vals.flatten = lo then lo + 1e-12 else maxOf vals.flatten := ⟨_, rfl⟩
  have hc : ∀ x, torusColour vals x = (x - lo) / (hi - lo) := by
    intro x; unfold torusColour; rw [hhi, hlo]
  have hle : minOf vals.flatten ≤ maxOf vals.flatten := minOf_le_maxOf _
  have hpos : 0 < hi - lo := by
    rw [hhi]
    split
    · norm_num
    · rename_i h
      rw [← hlo] at hle
      rcases lt_or_eq_of_le hle with h' | h'
      · linarith
      · exact absurd h'.symm h
  have hmax : maxOf vals.flatten ≤ hi := by
    rw [hhi]
    split
    · rename_i h; rw [h]; norm_num
    · exact le_rfl
  have b1 : lo ≤ v := by rw [hlo]; exact minOf_le mv
  have b2 : v ≤ hi := (le_maxOf mv).trans hmax
  refine ⟨?_, ?_, ?_, ?_, ?_, ?_⟩
  · rw [hc]; exact div_nonneg (by linarith) hpos.le
  · rw [hc, div_le_one hpos]; linarith
  · rw [hc, hc, div_lt_div_iff_of_pos_right hpos]; constructor <;> intro h <;> linarith
  · rw [hc, hc, div_left_inj' hpos.ne']; constructor <;> intro h <;> linarith
  · intro h
    obtain ⟨c, hc1, hc2⟩ := List.mem_flatten.1 (minOf_mem hne)
    have := h c hc1 _ hc2
    rw [hc, hlo, this, sub_self, zero_div]
  · intro h
    obtain ⟨c, hc1, hc2⟩ := List.mem_flatten.1 (minOf_mem hne)
    obtain ⟨d, hd1, hd2⟩ := List.mem_flatten.1 (maxOf_mem hne)
    refine ⟨c, hc1, _, hc2, d, hd1, _, hd2, ?_, ?_⟩
    · rw [hc, hlo, sub_self, zero_div]
    · rw [hc]
      have hn : maxOf vals.flatten ≠ lo := by
        intro e
        rw [hlo] at e
        apply h
        intro c hc x hx
        exact (min_eq_max_iff hne).1 e x (List.mem_flatten.2 ⟨c, hc, hx⟩) v mv
      have : maxOf vals.flatten = hi := by rw [hhi, if_neg hn]
      rw [this]
      exact div_self hpos.ne'

example := C103_torus_colours [[1, 2], [3]] [1, 2] [3] (by simp) (by simp) 2 3 (by simp) (by simp)

/-- **C103** `plot_crossections` colours each cut by itself: a cut on which the function is constant gets NaN instead of colours, otherwise the
colours of one cut lie in `[0, 1]`, are ordered as the values, and both ends of the colour map are used. -/
theorem C103_crossection_colours (vals : List ℝ) (v w : ℝ) (hv : v ∈ vals) (hw : w ∈ vals) :
    (crossectionColour vals v = none ↔ ∀ x ∈ vals, ∀ y ∈ vals, x = y) ∧
    ∀ c d, crossectionColour vals v = some c → crossectionColour vals w = some d → 0 ≤ c ∧ c ≤ 1 ∧ (c < d ↔ v < w) ∧ (c = d ↔ v = w) ∧
      (∃ x ∈ vals, crossectionColour vals x = some 0) ∧ ∃ x ∈ vals, crossectionColour vals x = some 1 := by
  have hne : vals ≠ [] := List.ne_nil_of_mem hv
  have hle : minOf vals ≤ maxOf vals := minOf_le_maxOf _
  constructor
  · rw [← min_eq_max_iff hne, ← sub_eq_zero (a := maxOf vals)]
    unfold crossectionColour
    split <;> simp_all
  · intro c d h1 h2
    unfold crossectionColour at h1 h2
    by_cases h : maxOf vals - minOf vals = 0
    · rw [if_pos h] at h1; cases h1
    · rw [if_neg h] at h1 h2
      cases h1; cases h2
      have hpos : 0 < maxOf vals - minOf vals := lt_of_le_of_ne (by linarith) (Ne.symm h)
      have := minOf_le hv
      have := le_maxOf hv
      refine ⟨div_nonneg (by linarith) hpos.le, ?_, ?_, ?_, ⟨minOf vals, minOf_mem hne, ?_⟩, ⟨maxOf vals, maxOf_mem hne, ?_⟩⟩
      · rw [div_le_one hpos]; linarith
      · rw [div_lt_div_iff_of_pos_right hpos]; constructor <;> intro h <;> linarith
      · rw [div_left_inj' hpos.ne']; constructor <;> intro h <;> linarith
      · unfold crossectionColour; rw [if_neg h, sub_self, zero_div]
      · unfold crossectionColour; rw [if_neg h, div_self h]

example := C103_crossection_colours [1, 2] 1 2 (by simp) (by simp)

/-- **C103** the colours of `plot_crossections` on two (non-constant) cuts can be compared exactly when the function has the same smallest and
largest value on both; `plot_torus` needs no such condition. -/
theorem C103_comparable_iff (a b : List ℝ) (ha : maxOf a ≠ minOf a) (hb : maxOf b ≠ minOf b) :
    (∀ v, crossectionColour a v = crossectionColour b v) ↔ minOf a = minOf b ∧ maxOf a = maxOf b := by
  have pa := sub_ne_zero.2 ha
  have pb := sub_ne_zero.2 hb
  have e : ∀ v, crossectionColour a v = crossectionColour b v ↔ (v - minOf a) / (maxOf a - minOf a) = (v - minOf b) / (maxOf b - minOf b) := by
    intro v
    unfold crossectionColour
    rw [if_neg pa, if_neg pb, Option.some.injEq]
  constructor
  · intro h
    have h1 := (e _).1 (h (minOf a))
    have h2 := (e _).1 (h (maxOf a))
    rw [sub_self, zero_div, eq_comm, div_eq_zero_iff, or_iff_left pb] at h1
    have h1' : minOf a = minOf b := by linarith
    rw [div_self pa, eq_comm, div_eq_one_iff_eq pb] at h2
    exact ⟨h1', by linarith⟩
  · rintro ⟨h1, h2⟩ v
    rw [e, h1, h2]

example : maxOf ([1, 2] : List ℝ) ≠ minOf [1, 2] := by norm_num [maxOf, minOf]

/-- **C103** vertex and value belong together: on every two-dimensional cut, of any sizes and orientation, the vertex drawn at index `(i, j)` is the image of a
grid point and the value there is the function at that point. -/
theorem C103_vertex_value (p : V3 → ℝ) (F : V3 → V3) (cut : ℝ) (axis : Int) (a : Grid2Args) (i j : Nat) (y : V3)
    (hy : (get2dGrids F cut axis a).Y i j 0 = some y) :
    ∃ x ∈ (get2dGrids F cut axis a).x, y = F x ∧
      gridValues p (get2dGrids F cut axis a) (if axis = 0 then a.nz else if axis = 1 then a.nz else a.ny) i j = some (p x) := by
  simp only [get2dGrids, if_true, reshape2, List.getElem?_map] at hy
  obtain ⟨x, hx, rfl⟩ := Option.map_eq_some_iff.1 hy
  refine ⟨x, ?_, rfl, ?_⟩
  · exact List.mem_of_getElem? hx
  · simp only [gridValues, get2dGrids, reshape2, List.getElem?_map]
    rw [hx]; rfl

example := C103_vertex_value (fun x => x 0) id 0.5 0 { nx := 2, ny := 3, nz := 4 } 1 2 ![0.5, _, _]
  ((C65_2d_aligned id 0.5 { nx := 2, ny := 3, nz := 4 }).1 1 2 (by rw [Grid2Args.x2_length]; decide) (by rw [Grid2Args.x3_length]; decide))

/-- **C103** `plot_crossections_separate` returns exactly when there are at least two cuts and at least as many labels as cuts. -/
theorem C103_sections_return_iff (p : V3 → ℝ) (grids : List Grid) (zetas : List ℝ) :
    (∃ S, crossectionsSeparate p grids zetas = .ok S) ↔ 2 ≤ grids.length ∧ grids.length ≤ zetas.length := by
  unfold crossectionsSeparate labels
  by_cases h0 : grids.length = 0
  · simp [h0]
  by_cases h1 : grids.length = 1
  · simp [h1]
  rw [if_neg h0, if_neg h1]
  by_cases h2 : grids.length ≤ zetas.length
  · rw [if_pos h2]
    simp only [Except.ok.injEq, exists_eq', true_iff]
    omega
  · rw [if_neg h2]
    simp [h2]

/-- **C103** what it then draws: panel `i` shows cut `i` at the poloidal coordinates `(R, z)` of its vertices with the function values at the grid
points, labelled with `zeta_vals[i]`; the common axis limits contain every vertex of every cut and are attained. -/
theorem C103_sections (p : V3 → ℝ) (grids : List Grid) (zetas : List ℝ) (S : Sections) (h : crossectionsSeparate p grids zetas = .ok S)
    (hg : ∀ g ∈ grids, g.y ≠ []) :
    S.panels.length = grids.length ∧
    (∀ i (hi : i < grids.length) (hz : i < zetas.length),
      S.panels[i]? = some (grids[i].y.map (fun y => (√(y 0 ^ 2 + y 1 ^ 2), y 2)), grids[i].x.map p, zetas[i])) ∧
    (∀ g ∈ grids, ∀ y ∈ g.y, S.xlim.1 ≤ √(y 0 ^ 2 + y 1 ^ 2) ∧ √(y 0 ^ 2 + y 1 ^ 2) ≤ S.xlim.2 ∧ S.ylim.1 ≤ y 2 ∧ y 2 ≤ S.ylim.2) ∧
    (∃ g ∈ grids, ∃ y ∈ g.y, √(y 0 ^ 2 + y 1 ^ 2) = S.xlim.1) ∧ (∃ g ∈ grids, ∃ y ∈ g.y, √(y 0 ^ 2 + y 1 ^ 2) = S.xlim.2) ∧
    (∃ g ∈ grids, ∃ y ∈ g.y, y 2 = S.ylim.1) ∧ ∃ g ∈ grids, ∃ y ∈ g.y, y 2 = S.ylim.2 := by
  have hlen := (C103_sections_return_iff p grids zetas).1 ⟨S, h⟩
  unfold crossectionsSeparate labels at h
  rw [if_neg (by omega), if_neg (by omega), if_pos hlen.2] at h
  simp only [Except.ok.injEq] at h
  have hne : grids ≠ [] := by
    intro e; rw [e] at hlen; simp at hlen
  have bmin : ∀ (f : V3 → ℝ), ∀ g ∈ grids, ∀ y ∈ g.y, minOf (grids.map fun g => minOf (g.y.map f)) ≤ f y := fun f g hg y hy =>
    (minOf_le (List.mem_map.2 ⟨g, hg, rfl⟩)).trans (minOf_le (List.mem_map.2 ⟨y, hy, rfl⟩))
  have bmax : ∀ (f : V3 → ℝ), ∀ g ∈ grids, ∀ y ∈ g.y, f y ≤ maxOf (grids.map fun g => maxOf (g.y.map f)) := fun f g hg y hy =>
    (le_maxOf (List.mem_map.2 ⟨y, hy, rfl⟩)).trans (le_maxOf (List.mem_map.2 ⟨g, hg, rfl⟩))
  have amin : ∀ (f : V3 → ℝ), ∃ g ∈ grids, ∃ y ∈ g.y, f y = minOf (grids.map fun g => minOf (g.y.map f)) := by
    intro f
    obtain ⟨g, h1, e1⟩ := List.mem_map.1 (minOf_mem (l := grids.map fun g => minOf (g.y.map f)) (by simpa using hne))
    obtain ⟨y, h2, e2⟩ := List.mem_map.1 (minOf_mem (l := g.y.map f) (by simpa using hg g h1))
    exact ⟨g, h1, y, h2, e2.trans e1⟩
  have amax : ∀ (f : V3 → ℝ), ∃ g ∈ grids, ∃ y ∈ g.y, f y = maxOf (grids.map fun g => maxOf (g.y.map f)) := by
    intro f
    obtain ⟨g, h1, e1⟩ := List.mem_map.1 (maxOf_mem (l := grids.map fun g => maxOf (g.y.map f)) (by simpa using hne))
    obtain ⟨y, h2, e2⟩ := List.mem_map.1 (maxOf_mem (l := g.y.map f) (by simpa using hg g h1))
    exact ⟨g, h1, y, h2, e2.trans e1⟩
  subst h
  refine ⟨?_, ?_, ?_, amin (fun y => (poloidal y).1), amax (fun y => (poloidal y).1), amin (fun y => (poloidal y).2), amax (fun y => (poloidal y).2)⟩
  · simp [hlen.2]
  · intro i hi hz
    simp only [List.getElem?_zipWith, List.getElem?_eq_getElem hi, List.getElem?_take, if_pos hi, List.getElem?_eq_getElem hz]
    rfl
  · intro g hg y hy
    exact ⟨bmin (fun y => (poloidal y).1) g hg y hy, bmax (fun y => (poloidal y).1) g hg y hy,
      bmin (fun y => (poloidal y).2) g hg y hy, bmax (fun y => (poloidal y).2) g hg y hy⟩

/-- Case: two cuts. -/
example (p : V3 → ℝ) (F : V3 → V3) : ∃ S, crossectionsSeparate p [get2dGrids F 0 2 {}, get2dGrids F 0.5 2 {}] [0, 0.5] = .ok S ∧
    ∀ g ∈ [get2dGrids F 0 2 {}, get2dGrids F 0.5 2 {}], g.y ≠ [] := by
  obtain ⟨S, h⟩ := (C103_sections_return_iff p [get2dGrids F 0 2 {}, get2dGrids F 0.5 2 {}] [0, 0.5]).2 (by simp)
  refine ⟨S, h, ?_⟩
  intro g hg
  have key : ∀ c : ℝ, (get2dGrids F c 2 {}).y ≠ [] := by
    intro c e
    obtain ⟨_, _, h⟩ := C65_cut2_entries F c 2 (by decide) (by decide) {} 0 0 (by decide) (by decide)
    simp only [get2dGrids, reshape2, if_true] at h e
    rw [e] at h
    simp at h
  rcases List.mem_cons.1 hg with rfl | hg
  · exact key _
  · rw [List.mem_singleton.1 hg]; exact key _

/-! ## `pressure_plot` -/

/-- **C103** the contour data of `pressure_plot`: entry `(i, j)` consists of the first and third coordinate of the image of the logical point whose
indices are the remainder and the quotient of `64 i + j` by the resolution, and the pressure there. -/
theorem C103_pressure_entries (p : V3 → ℝ) (F : V3 → V3) (zeta : ℝ) (res : Nat) (tol : ℝ) (i j : Nat) (hi : i < res) (hj : j < 64) :
    ∃ (h1 : (i * 64 + j) % res < (linspace tol (1 - tol) res).length) (h2 : (i * 64 + j) / res < (linspace 0 1 64).length),
      let x : V3 := ![(linspace tol (1 - tol) res)[(i * 64 + j) % res], (linspace 0 1 64)[(i * 64 + j) / res], zeta]
      pressureContour p F zeta res tol i j = some (F x 0, F x 2, p x) := by
  obtain ⟨h1, h2, h⟩ := C65_cut2_entries F zeta 2 (by decide) (by decide) { nx := res, tol1 := tol } i j hi hj
  have h' := (C65_cut2_entries (fun x => x) zeta 2 (by decide) (by decide) { nx := res, tol1 := tol } i j hi hj)
  obtain ⟨_, _, hx⟩ := h'
  have e1 : ({ nx := res, tol1 := tol } : Grid2Args).x1 = linspace tol (1 - tol) res := by simp [Grid2Args.x1]
  have e2 : ({ nx := res, tol1 := tol } : Grid2Args).x2 = linspace 0 1 64 := by simp [Grid2Args.x2]
  simp only [e1, e2] at h h1 h2 hx
  refine ⟨h1, h2, ?_⟩
  have hv : gridValues p (pressureGrid F zeta res tol) 64 i j =
      some (p ![(linspace tol (1 - tol) res)[(i * 64 + j) % res], (linspace 0 1 64)[(i * 64 + j) / res], zeta]) := by
    simp only [get2dGrids, if_true, reshape2, List.map_id'] at hx
    have hx2 : (pressureGrid F zeta res tol).x[i * 64 + j]? = _ := hx
    simp only [gridValues, reshape2, List.getElem?_map]
    rw [hx2]
    rfl
  unfold pressureContour
  rw [hv]
  have h3 : (pressureGrid F zeta res tol).Y i j 0 = _ := h
  rw [h3]

example := C103_pressure_entries (fun x => x 0) id 0 128 1e-3 1 2 (by decide) (by decide)

/-- The logical point drawn at index `(i, j)` of `pressure_plot`. -/
noncomputable def pressurePoint (res : Nat) (tol zeta : ℝ) (i j : Nat) : Option V3 := reshape2 (pressureGrid id zeta res tol).x 64 i j

/-- **C103** the contour grid of `pressure_plot` is a product grid (one radius per column, one angle per row) exactly when the resolution is 64;
the default is 128. -/
theorem C103_pressure_grid_iff (res : Nat) (hr : 1 ≤ res) (tol zeta : ℝ) (ht : tol ≠ 1 / 2) :
    (∀ i i' j j' x x' x'', i < res → i' < res → j < 64 → j' < 64 → pressurePoint res tol zeta i j = some x →
      pressurePoint res tol zeta i j' = some x' → pressurePoint res tol zeta i' j = some x'' → x 1 = x' 1 ∧ x 0 = x'' 0) ↔ res = 64 := by
  have entry : ∀ i j, i < res → j < 64 → ∃ (h1 : (i * 64 + j) % res < (linspace tol (1 - tol) res).length) (h2 : (i * 64 + j) / res < (linspace 0 1 64).length),
      pressurePoint res tol zeta i j = some ![(linspace tol (1 - tol) res)[(i * 64 + j) % res], (linspace 0 1 64)[(i * 64 + j) / res], zeta] := by
    intro i j hi hj
    obtain ⟨h1, h2, h⟩ := C65_cut2_entries id zeta 2 (by decide) (by decide) { nx := res, tol1 := tol } i j hi hj
    have e1 : ({ nx := res, tol1 := tol } : Grid2Args).x1 = linspace tol (1 - tol) res := by simp [Grid2Args.x1]
    have e2 : ({ nx := res, tol1 := tol } : Grid2Args).x2 = linspace 0 1 64 := by simp [Grid2Args.x2]
    simp only [e1, e2] at h h1 h2
    refine ⟨h1, h2, ?_⟩
    simp only [get2dGrids, if_true, reshape2, List.map_id] at h
    exact h
  constructor
  · intro h
    rcases lt_trichotomy res 64 with hlt | heq | hgt
    · exfalso
      obtain ⟨a1, a2, ha⟩ := entry 0 0 (by omega) (by omega)
      obtain ⟨b1, b2, hb⟩ := entry 0 res (by omega) hlt
      have := (h 0 0 0 res _ _ _ (by omega) (by omega) (by omega) hlt ha hb ha).1
      simp only [cons_val_one, cons_val_zero] at this
      have := linspace_injective (by norm_num) (by rwa [linspace_length] at a2) (by rwa [linspace_length] at b2) this
      rw [Nat.zero_mul, Nat.zero_add, Nat.zero_add, Nat.zero_div, Nat.div_self (by omega)] at this
      omega
    · exact heq
    · exfalso
      obtain ⟨a1, a2, ha⟩ := entry 0 0 (by omega) (by omega)
      obtain ⟨b1, b2, hb⟩ := entry 1 0 (by omega) (by omega)
      have := (h 0 1 0 0 _ _ _ (by omega) (by omega) (by omega) (by omega) ha ha hb).2
      simp only [cons_val_zero] at this
      have := linspace_injective (by intro e; apply ht; linarith) (by rwa [linspace_length] at a1) (by rwa [linspace_length] at b1) this
      rw [Nat.zero_mul, Nat.zero_add, Nat.zero_mod, Nat.one_mul, Nat.add_zero, Nat.mod_eq_of_lt hgt] at this
      omega
  · rintro rfl i i' j j' x x' x'' hi hi' hj hj' hx hx' hx''
    obtain ⟨a1, a2, ha⟩ := entry i j hi hj
    obtain ⟨b1, b2, hb⟩ := entry i j' hi hj'
    obtain ⟨c1, c2, hc⟩ := entry i' j hi' hj
    rw [ha] at hx; rw [hb] at hx'; rw [hc] at hx''
    cases hx; cases hx'; cases hx''
    have d : ∀ i j, j < 64 → (i * 64 + j) / 64 = i := fun i j hj => by omega
    have m : ∀ i j, j < 64 → (i * 64 + j) % 64 = j := fun i j hj => by omega
    simp only [cons_val_one, cons_val_zero, d i j hj, d i j' hj', m i j hj, m i' j hj, and_self]

example : ¬ (128 = 64) := by decide

/-- **C103** the dashed outline of `pressure_plot` belongs to the section at toroidal angle 0: for the tokamak map it is the boundary of the drawn
section exactly when `zeta` is a whole number of turns. -/
theorem C103_outline_iff {ε R0 : ℝ} (κ : ℝ) (hε : 0 ≤ ε) (hR : ε < R0) (zeta : ℝ) :
    (∀ t, (toroidMap ε κ R0 ![1, t, zeta] 0, toroidMap ε κ R0 ![1, t, zeta] 2) = (toroidMap ε κ R0 ![1, t, 0] 0, toroidMap ε κ R0 ![1, t, 0] 2)) ↔
      ∃ k : ℤ, zeta = k := by
  have e : ∀ t z, toroidMap ε κ R0 ![1, t, z] 0 = (R0 + ε * Real.cos (2 * Real.pi * t)) * Real.cos (2 * Real.pi * z) ∧
      toroidMap ε κ R0 ![1, t, z] 2 = ε * κ * Real.sin (2 * Real.pi * t) := by
    intro t z
    rw [C59_closed_form]
    simp [Spec.cylindrical]
  have hpos : 0 < R0 + ε * Real.cos (2 * Real.pi * 0) := by
    rw [mul_zero, Real.cos_zero]; linarith
  constructor
  · intro h
    have := congrArg Prod.fst (h 0)
    simp only [(e _ _).1] at this
    rw [mul_zero (2 * Real.pi), Real.cos_zero] at this
    have hc : Real.cos (2 * Real.pi * zeta) = 1 := by
      have h2 : R0 + ε * 1 ≠ 0 := by linarith
      exact mul_left_cancel₀ h2 (by linarith)
    obtain ⟨k, hk⟩ := (Real.cos_eq_one_iff _).1 hc
    refine ⟨k, ?_⟩
    have hp : (2 * Real.pi) ≠ 0 := by positivity
    exact mul_left_cancel₀ hp (by linarith)
  · rintro ⟨k, rfl⟩ t
    have : Real.cos (2 * Real.pi * k) = 1 := (Real.cos_eq_one_iff _).2 ⟨k, by ring⟩
    rw [Prod.mk.injEq, (e _ _).1, (e _ _).1, (e _ _).2, (e _ _).2, this, mul_zero, Real.cos_zero]
    exact ⟨rfl, rfl⟩

example := C103_outline_iff (ε := 1 / 3) (R0 := 1) 1.5 (by norm_num) (by norm_num) 0.25

/-- **C103** and the outline consists of 256 points of that boundary, point number `i` at the angle `i / 255`. -/
theorem C103_outline (F : V3 → V3) : (pressureOutline F).length = 256 ∧
    ∀ i : Nat, i < 256 → (pressureOutline F)[i]? = some (F ![1, i / 255, 0] 0, F ![1, i / 255, 0] 2) := by
  unfold pressureOutline
  refine ⟨by rw [List.length_map, linspace_length], fun i hi => ?_⟩
  have : (linspace 0 1 256)[i]? = some ((i : ℝ) / 255) := by
    unfold linspace
    rw [List.getElem?_map, List.getElem?_range hi, Option.map_some, if_neg (by decide)]
    congr 1
    push_cast
    ring
  rw [List.getElem?_map, this, Option.map_some]

/-! ## `plot_scalar_fct_physical_logical` -/

/-- **C103** the plane names (after `lower()`): the call raises for every other name, and the physical panel is drawn for two of the six names of the
`r`-`θ` plane only, not for `rt`, the name the error message recommends; the third name the code tests for, `r_x_theta`, raises. -/
theorem C103_plane_names (p : V3 → ℝ) (Phi : V3 → V3) (n : Nat) (scale : ℝ) (name : String) (fr ft fz : ℝ) :
    ((∃ r, plotScalar p Phi n scale name fr ft fz = .ok r) ↔
      name ∈ ["r_theta", "rθ", "r_θ", "rtheta", "rt", "r_t", "r_zeta", "r_ζ", "r_z", "rzeta", "rz", "rζ", "theta_zeta", "θ_ζ", "theta_z", "thetazeta", "tz", "t_z", "θζ"]) ∧
    ((∃ c l, plotScalar p Phi n scale name fr ft fz = .ok (some c, l)) ↔ name = "r_theta" ∨ name = "rθ") := by
  have h1 : (∃ pl, planeOf name = .ok pl) ↔
      name ∈ ["r_theta", "rθ", "r_θ", "rtheta", "rt", "r_t", "r_zeta", "r_ζ", "r_z", "rzeta", "rz", "rζ", "theta_zeta", "θ_ζ", "theta_z", "thetazeta", "tz", "t_z", "θζ"] := by
    have : ["r_theta", "rθ", "r_θ", "rtheta", "rt", "r_t", "r_zeta", "r_ζ", "r_z", "rzeta", "rz", "rζ", "theta_zeta", "θ_ζ", "theta_z", "thetazeta", "tz", "t_z", "θζ"] =
      ["r_theta", "rθ", "r_θ", "rtheta", "rt", "r_t"] ++ ["r_zeta", "r_ζ", "r_z", "rzeta", "rz", "rζ"] ++ ["theta_zeta", "θ_ζ", "theta_z", "thetazeta", "tz", "t_z", "θζ"] := rfl
    rw [this, List.mem_append, List.mem_append]
    unfold planeOf
    by_cases a1 : name ∈ ["r_theta", "rθ", "r_θ", "rtheta", "rt", "r_t"]
    · rw [if_pos a1]; simp only [a1, true_or, Except.ok.injEq, exists_eq']
    by_cases a2 : name ∈ ["r_zeta", "r_ζ", "r_z", "rzeta", "rz", "rζ"]
    · rw [if_neg a1, if_pos a2]; simp only [a2, true_or, or_true, Except.ok.injEq, exists_eq']
    by_cases a3 : name ∈ ["theta_zeta", "θ_ζ", "theta_z", "thetazeta", "tz", "t_z", "θζ"]
    · rw [if_neg a1, if_neg a2, if_pos a3]; simp only [a3, or_true, Except.ok.injEq, exists_eq']
    · rw [if_neg a1, if_neg a2, if_neg a3]; simp only [a1, a2, a3, or_false, reduceCtorEq, exists_false]
  constructor
  · rw [← h1]
    unfold plotScalar
    cases planeOf name with
    | error e => simp
    | ok pl => simp
  · unfold plotScalar
    constructor
    · rintro ⟨c, l, h⟩
      cases hp : planeOf name with
      | error e => rw [hp] at h; cases h
      | ok pl =>
        rw [hp] at h
        have hb : physicalPanel name = true := by
          by_contra hb
          simp only [if_neg hb, Except.ok.injEq, Prod.mk.injEq, reduceCtorEq, false_and] at h
        have hm : name ∈ ["r_theta", "rθ", "r_x_theta"] := of_decide_eq_true hb
        simp only [List.mem_cons, List.not_mem_nil, or_false] at hm
        rcases hm with rfl | rfl | rfl
        · exact Or.inl rfl
        · exact Or.inr rfl
        · rw [show planeOf "r_x_theta" = .error .valueError by decide] at hp
          cases hp
    · rintro (rfl | rfl)
      · have e1 : planeOf "r_theta" = .ok .rTheta := by decide
        have e2 : physicalPanel "r_theta" = true := by decide
        rw [e1]
        simp only [e2, if_true]
        exact ⟨_, _, rfl⟩
      · have e1 : planeOf "rθ" = .ok .rTheta := by decide
        have e2 : physicalPanel "rθ" = true := by decide
        rw [e1]
        simp only [e2, if_true]
        exact ⟨_, _, rfl⟩

theorem planePoints_get (pl : Plane) (n : Nat) (fr ft fz : ℝ) (i j : Nat) (hi : i < n) (hj : j < n) :
    reshape2 (planePoints pl n fr ft fz) n i j = some (planePoint pl n fr ft fz i j) := by
  unfold reshape2 planePoints
  have key : ∀ (m : Nat) (g : Nat → Nat → V3) (i : Nat), i < m → (((List.range m).flatMap fun i => (List.range n).map fun j => g i j))[i * n + j]? = some (g i j) := by
    intro m
    induction m with
    | zero => intro g i hi; omega
    | succ m ih =>
      intro g i hi
      rw [List.range_succ_eq_map, List.flatMap_cons, List.flatMap_map]
      rcases i with _ | i
      · rw [Nat.zero_mul, Nat.zero_add, List.getElem?_append_left (by simpa using hj)]
        simp [hj]
      · rw [List.getElem?_append_right (by simp only [List.length_map, List.length_range]; rw [Nat.add_mul, Nat.one_mul]; omega)]
        simp only [List.length_map, List.length_range]
        have : (i + 1) * n + j - n = i * n + j := by rw [Nat.add_mul, Nat.one_mul]; omega
        rw [this]
        exact ih (fun a => g (a + 1)) i (by omega)
  exact key n _ i hi

/-- The logical point with given coordinates in a plane. -/
def planeMap (pl : Plane) (fr ft fz : ℝ) : ℝ → ℝ → V3 :=
  match pl with
  | .rTheta => fun a b => ![a, b, fz]
  | .rZeta => fun a b => ![a, ft, b]
  | .thetaZeta => fun a b => ![fr, a, b]

/-- The names of a plane. -/
def planeNames : Plane → List String
  | .rTheta => ["r_theta", "rθ", "r_θ", "rtheta", "rt", "r_t"]
  | .rZeta => ["r_zeta", "r_ζ", "r_z", "rzeta", "rz", "rζ"]
  | .thetaZeta => ["theta_zeta", "θ_ζ", "theta_z", "thetazeta", "tz", "t_z", "θζ"]

theorem planeOf_name {name : String} {pl : Plane} (h : planeOf name = .ok pl) : name ∈ planeNames pl := by
  unfold planeOf at h
  by_cases a1 : name ∈ ["r_theta", "rθ", "r_θ", "rtheta", "rt", "r_t"]
  · rw [if_pos a1] at h; cases h; exact a1
  by_cases a2 : name ∈ ["r_zeta", "r_ζ", "r_z", "rzeta", "rz", "rζ"]
  · rw [if_neg a1, if_pos a2] at h; cases h; exact a2
  by_cases a3 : name ∈ ["theta_zeta", "θ_ζ", "theta_z", "thetazeta", "tz", "t_z", "θζ"]
  · rw [if_neg a1, if_neg a2, if_pos a3] at h; cases h; exact a3
  · rw [if_neg a1, if_neg a2, if_neg a3] at h; cases h

/-- **C103** the data of the panels: at index `(i, j)` of the logical panel stand the `i`-th and `j`-th of `n` equidistant coordinates of the plane and
the scaled function value at the logical point with these coordinates and the fixed third one; the physical panel, if drawn, shows the same value
at the first and third coordinate of the image of the same point. -/
theorem C103_panels (p : V3 → ℝ) (Phi : V3 → V3) (n : Nat) (scale : ℝ) (name : String) (fr ft fz : ℝ) (phys : Option Contour) (log : Contour)
    (h : plotScalar p Phi n scale name fr ft fz = .ok (phys, log)) :
    ∃ x : ℝ → ℝ → V3, (name ∈ ["r_theta", "rθ", "r_θ", "rtheta", "rt", "r_t"] ∧ x = (fun a b => ![a, b, fz]) ∨
        name ∈ ["r_zeta", "r_ζ", "r_z", "rzeta", "rz", "rζ"] ∧ x = (fun a b => ![a, ft, b]) ∨
        name ∈ ["theta_zeta", "θ_ζ", "theta_z", "thetazeta", "tz", "t_z", "θζ"] ∧ x = fun a b => ![fr, a, b]) ∧
      ∀ i j, (hi : i < n) → (hj : j < n) → ∃ a b, a = (linspace 0 1 n)[i]'(by rwa [linspace_length]) ∧ b = (linspace 0 1 n)[j]'(by rwa [linspace_length]) ∧
        log i j = some (a, b, p (x a b) * scale) ∧ ∀ c, phys = some c → c i j = some (Phi (x a b) 0, Phi (x a b) 2, p (x a b) * scale) := by
  unfold plotScalar at h
  cases hp : planeOf name with
  | error e => rw [hp] at h; cases h
  | ok pl =>
    rw [hp] at h
    simp only [Except.ok.injEq, Prod.mk.injEq] at h
    obtain ⟨h1, h2⟩ := h
    have t : ∀ i, (hi : i < n) → (linspace 0 1 n).getD i 0 = (linspace 0 1 n)[i]'(by rwa [linspace_length]) := by
      intro i hi
      rw [List.getD_eq_getElem?_getD, List.getElem?_eq_getElem (by rwa [linspace_length]), Option.getD_some]
    have gen : ∀ (f : V3 → V3) (g : V3 → ℝ) i j, i < n → j < n → reshape2 ((planePoints pl n fr ft fz).map f) n i j = some (f (planePoint pl n fr ft fz i j)) ∧
        reshape2 ((planePoints pl n fr ft fz).map g) n i j = some (g (planePoint pl n fr ft fz i j)) := by
      intro f g i j hi hj
      have := planePoints_get pl n fr ft fz i j hi hj
      unfold reshape2 at this ⊢
      rw [List.getElem?_map, List.getElem?_map, this]
      exact ⟨rfl, rfl⟩
    refine ⟨planeMap pl fr ft fz, ?_, ?_⟩
    · have hn := planeOf_name hp
      cases pl
      · exact Or.inl ⟨hn, rfl⟩
      · exact Or.inr (Or.inl ⟨hn, rfl⟩)
      · exact Or.inr (Or.inr ⟨hn, rfl⟩)
    · intro i j hi hj
      refine ⟨_, _, rfl, rfl, ?_, ?_⟩
      · rw [← h2]
        simp only [planePoints_get pl n fr ft fz i j hi hj, (gen id p i j hi hj).2]
        rw [← t i hi, ← t j hj]
        cases pl <;> simp [planePoint, planeAxes, planeMap]
      · intro c hc
        have hb : physicalPanel name = true := by
          by_contra hb
          rw [if_neg hb] at h1
          rw [← h1] at hc
          cases hc
        rw [if_pos hb, hc] at h1
        cases h1
        simp only [(gen Phi p i j hi hj).1, (gen Phi p i j hi hj).2]
        rw [← t i hi, ← t j hj]
        cases pl <;> rfl

/-- Case: the plane `rz` of a map. -/
example (p : V3 → ℝ) (Phi : V3 → V3) : ∃ r, plotScalar p Phi 64 100 "rz" 0.5 0 0 = .ok r := (C103_plane_names p Phi 64 100 "rz" 0.5 0 0).1.2 (by decide)

/-! ## `plot_twin_axis` and `converge_plot` -/

/-- **C103** `plot_twin_axis` returns exactly when each side has as many abscissas as ordinates, which is automatic without given abscissas; it then draws each series against
its abscissas, by default `0, k, 2k, …` for `num_iters_inner = k`. -/
theorem C103_twin_axis (left right : List FV) (xl xr : Option (List FV)) (inner : Int) :
    ((∃ r, plotTwinAxis left right xl xr inner = .ok r) ↔ (∀ x, xl = some x → x.length = left.length) ∧ ∀ x, xr = some x → x.length = right.length) ∧
    ∀ l r, plotTwinAxis left right xl xr inner = .ok (l, r) → l.ys = left ∧ r.ys = right ∧ (∀ x, xl = some x → l.xs = x) ∧ (∀ x, xr = some x → r.xs = x) ∧
      (xl = none → ∀ i < left.length, l.xs[i]? = some (.fin (i * inner))) ∧ (xr = none → ∀ i < right.length, r.xs[i]? = some (.fin (i * inner))) := by
  have len : ∀ (x : Option (List FV)) (ys : List FV), (twinX x inner ys).length = ys.length ↔ ∀ l, x = some l → l.length = ys.length := by
    intro x ys
    cases x <;> simp [twinX]
  constructor
  · rw [← len, ← len]
    unfold plotTwinAxis plot
    by_cases h1 : (twinX xl inner left).length = left.length
    · rw [if_pos h1]
      by_cases h2 : (twinX xr inner right).length = right.length
      · simp [h1, h2]
      · simp [h1, h2]
    · simp [h1]
  · intro l r h
    unfold plotTwinAxis plot at h
    by_cases h1 : (twinX xl inner left).length = left.length
    · rw [if_pos h1] at h
      by_cases h2 : (twinX xr inner right).length = right.length
      · simp only [if_pos h2, Except.ok.injEq, Prod.mk.injEq] at h
        obtain ⟨rfl, rfl⟩ := h
        refine ⟨rfl, rfl, ?_, ?_, ?_, ?_⟩
        · rintro x rfl; rfl
        · rintro x rfl; rfl
        · rintro rfl i hi; simp [twinX, hi]
        · rintro rfl i hi; simp [twinX, hi]
      · simp only [if_neg h2, reduceCtorEq] at h
    · simp only [if_neg h1, reduceCtorEq] at h

/-- **C103** the style of a line: what the caller passes wins, everything else is the default. -/
theorem C103_style {α : Type} (base kwargs : IO.PyDict α) (h : (kwargs.map (·.1)).Nodup) (k : IO.PyStr) :
    (∀ v, kwargs.get? k = some v → (mergeStyle base kwargs).get? k = some v) ∧ (kwargs.get? k = none → (mergeStyle base kwargs).get? k = base.get? k) := by
  unfold mergeStyle
  rw [IO.PyDict.get?_update base kwargs h]
  constructor
  · intro v hv; rw [hv]; rfl
  · intro hv; rw [hv]; rfl

example := C103_style [("lw".toList, 2), ("ls".toList, 1)] [("ls".toList, 5)] (by decide) "ls".toList

/-- **C103** `converge_plot` draws one line per pair of order and quadrature rule, its points are the errors of that pair; the markers tell any two orders
apart exactly when there are at most as many orders as base markers (20 in the code). -/
theorem C103_converge (nBase nNs nPs nQs : Nat) (hb : 0 < nBase) (err : Nat → Nat → Nat → ℝ) :
    (convergeTraces nBase nNs nPs nQs err).length = nPs * nQs ∧
    (∀ j < nPs, ∀ k < nQs, ((List.range nNs).map fun i => err i j k, markerIndex nBase j, k) ∈ convergeTraces nBase nNs nPs nQs err) ∧
    ((∀ i < nPs, ∀ j < nPs, markerIndex nBase i = markerIndex nBase j → i = j) ↔ nPs ≤ nBase) := by
  refine ⟨?_, ?_, ?_⟩
  · unfold convergeTraces
    rw [flatMap_length_const _ _ nQs (by simp), List.length_range]
  · intro j hj k hk
    unfold convergeTraces
    exact List.mem_flatMap.2 ⟨j, List.mem_range.2 hj, List.mem_map.2 ⟨k, List.mem_range.2 hk, rfl⟩⟩
  · unfold markerIndex
    constructor
    · intro h
      by_contra hn
      have := h 0 (by omega) nBase (by omega) (by simp)
      omega
    · intro h i hi j hj e
      rwa [Nat.mod_eq_of_lt (by omega), Nat.mod_eq_of_lt (by omega)] at e

example := C103_converge 20 3 2 4 (by decide) fun i j k => i + j + k

end Mrx.Props
