import Verif.Model.EigenPlots
import Verif.Props.Grids
import Verif.Props.Drum
import Verif.Props.Mappings2
import Verif.Props.Geometry
import Verif.Props.Constants
import Verif.Props.HarmonicNeg
import Mathlib.Data.List.Sort
import Mathlib.Data.Nat.Sqrt
import Mathlib.Data.List.GetD
import Mathlib.Tactic.IntervalCases

/-!
# C120: the figures of eigenfunctions (cavity and drum scripts)
-/

set_option linter.unusedVariables false
set_option linter.unusedSectionVars false

namespace Mrx.Props
open Matrix Finset Real Spec Figures EigenPlots

/-! ## Which eigenpairs -/

/-- **C120** the selection of eigenpairs before the plots: the pairs kept are exactly the finite ones, each value with its own vector and as often as it was found, in ascending
order of the values. -/
theorem C120_selection {α : Type} (pairs : List (Option ℝ × α)) :
    ((selectPairs pairs).map fun p => (some p.1, p.2)).Perm (pairs.filter fun p => p.1.isSome) ∧ ((selectPairs pairs).map Prod.fst).Pairwise (· ≤ ·) := by
  have hp : (selectPairs pairs).Perm (pairs.filterMap fun p => p.1.map fun w => (w, p.2)) := List.perm_insertionSort _ _
  constructor
  · refine (hp.map _).trans (List.Perm.of_eq ?_)
    induction pairs with
    | nil => rfl
    | cons p ps ih =>
      obtain ⟨w, v⟩ := p
      have ih' := ih (List.perm_insertionSort _ _)
      cases w with
      | none => simpa using ih'
      | some w => simpa using ih'
  · have : (selectPairs pairs).Pairwise fun a b => a.1 ≤ b.1 := by
      haveI : Std.Total (fun a b : ℝ × α => a.1 ≤ b.1) := ⟨fun a b => le_total _ _⟩
      haveI : IsTrans (ℝ × α) (fun a b => a.1 ≤ b.1) := ⟨fun a b c h1 h2 => le_trans h1 h2⟩
      exact List.pairwise_insertionSort _ _
    exact List.pairwise_map.mpr this

example := C120_selection [(some (3 : ℝ), 'a'), (none, 'b'), (some 1, 'c')]

/-- **C120** the spectrum plot: point `k` (counted from `0`) is the eigenvalue number `k` itself, not divided by `π²` as the label of the axis says, for the first `last` eigenvalues. -/
theorem C120_spectrum_points (evs : List ℝ) (last : Nat) :
    (spectrumPoints evs last).length = min last evs.length ∧ ∀ k (h : k < min last evs.length), (spectrumPoints evs last)[k]? = some (k, evs[k]'(by omega)) := by
  unfold spectrumPoints
  constructor
  · simp
  · intro k h
    rw [List.getElem?_eq_getElem (by simpa using h)]
    simp

example := C120_spectrum_points [1, 2, 4] 2

/-! ## The grid of panels -/

theorem drawPanels_ok {α : Type} (N : Nat) (draw : Nat → α) (l : List Nat) : (∀ i ∈ l, i < N) → drawPanels N draw l = .ok (l.map draw) := by
  induction l with
  | nil => intro _; rfl
  | cons a l ih =>
    intro h
    rw [drawPanels, if_pos (h a (by simp)), ih fun i hi => h i (List.mem_cons_of_mem _ hi)]
    rfl

theorem drawPanels_err {α : Type} (N : Nat) (draw : Nat → α) (l : List Nat) : (∃ i ∈ l, ¬ i < N) → drawPanels N draw l = .error .indexError := by
  induction l with
  | nil => rintro ⟨i, hi, _⟩; simp at hi
  | cons a l ih =>
    rintro ⟨i, hi, hn⟩
    rw [drawPanels]
    by_cases ha : a < N
    · rw [if_pos ha]
      rcases List.mem_cons.mp hi with rfl | hi
      · exact absurd ha hn
      · rw [ih ⟨i, hi, hn⟩]
    · rw [if_neg ha]

section grid
variable {m r c : Nat} (evecs : Fin c → Fin (m + r) → ℝ) (Λ1 : Form ℝ) (E1 : Matrix (Fin m) (Fin Λ1.dims.n) ℝ) (F : V3 → V3) (ax : Fin 3) (x : List V3) (nx num : Nat)

theorem clip_eq (num c : Nat) : (if num > c then c else num) = min num c := by
  split <;> omega

/-- **C120** when the figure of eigenvectors exists: with `k` panels (the number asked for, but at most the number of eigenvectors) the call succeeds exactly if `k` is a
perfect square of at least 4. Otherwise it fails: with a `ValueError` for no panel, an `AttributeError` for one to three and an `IndexError` for any other number; so the announced
fallback "Plotting all available" works only by luck, and there is never an unused axis to hide. -/
theorem C120_grid_exists_iff :
    ((∃ g, plotEigenvectorsGrid evecs Λ1 E1 F ax x nx num = .ok g) ↔ ∃ s, 2 ≤ s ∧ min num c = s * s) ∧
    (∀ g, plotEigenvectorsGrid evecs Λ1 E1 F ax x nx num = .ok g → g.side * g.side = min num c ∧ g.panels.length = min num c ∧ g.removed = []) ∧
    (min num c = 0 → plotEigenvectorsGrid evecs Λ1 E1 F ax x nx num = .error .valueError) ∧
    (0 < min num c → min num c < 4 → plotEigenvectorsGrid evecs Λ1 E1 F ax x nx num = .error .attributeError) ∧
    (4 ≤ min num c → (∀ s, min num c ≠ s * s) → plotEigenvectorsGrid evecs Λ1 E1 F ax x nx num = .error .indexError) := by
  unfold plotEigenvectorsGrid
  simp only [clip_eq]
  obtain ⟨k, hk⟩ : ∃ k, k = min num c := ⟨_, rfl⟩
  rw [← hk]
  have s0 : Nat.sqrt k = 0 ↔ k = 0 := Nat.sqrt_eq_zero
  have s1 : Nat.sqrt k = 1 ↔ 0 < k ∧ k < 4 := by
    constructor
    · intro h
      have h1 := Nat.sqrt_le k
      have h2 := Nat.lt_succ_sqrt k
      rw [h] at h1 h2
      omega
    · rintro ⟨h1, h2⟩
      rw [Nat.eq_sqrt.symm.trans ⟨fun h => h.symm, fun h => h.symm⟩ |>.symm] <;> omega
  have hle := Nat.sqrt_le k
  have hlt := Nat.lt_succ_sqrt k
  have sq : ∀ s, k = s * s → Nat.sqrt k = s := fun s h => by rw [h]; exact Nat.sqrt_eq s
  have perf : Nat.sqrt k * Nat.sqrt k = k ∨ (∀ s, k ≠ s * s) := by
    by_cases h : ∃ s, k = s * s
    · obtain ⟨s, hs⟩ := h
      left
      rw [sq s hs, hs]
    · right
      exact fun s hs => h ⟨s, hs⟩
  have okay : ∀ draw : Nat → Nat → Nat → Option (ℝ × ℝ × ℝ), Nat.sqrt k * Nat.sqrt k = k → drawPanels (Nat.sqrt k * Nat.sqrt k) draw (List.range k) = .ok ((List.range k).map draw) := by
    intro draw h
    exact drawPanels_ok _ _ _ fun i hi => by rw [h]; exact List.mem_range.mp hi
  have bad : ∀ draw : Nat → Nat → Nat → Option (ℝ × ℝ × ℝ), Nat.sqrt k * Nat.sqrt k ≠ k → drawPanels (Nat.sqrt k * Nat.sqrt k) draw (List.range k) = .error .indexError := by
    intro draw h
    exact drawPanels_err _ _ _ ⟨Nat.sqrt k * Nat.sqrt k, List.mem_range.mpr (by omega), lt_irrefl _⟩
  refine ⟨⟨?_, ?_⟩, ?_, ?_, ?_, ?_⟩
  · rintro ⟨g, hg⟩
    by_cases h0 : Nat.sqrt k = 0
    · rw [if_pos h0] at hg; exact absurd hg (by simp)
    by_cases h1 : Nat.sqrt k = 1
    · rw [if_neg h0, if_pos h1] at hg; exact absurd hg (by simp)
    rw [if_neg h0, if_neg h1] at hg
    by_cases h : Nat.sqrt k * Nat.sqrt k = k
    · exact ⟨Nat.sqrt k, by omega, h.symm⟩
    · rw [bad _ h] at hg
      exact absurd hg (by simp)
  · rintro ⟨s, hs, hk'⟩
    have e := sq s hk'
    have hk2 : Nat.sqrt k * Nat.sqrt k = k := by rw [e, hk']
    rw [if_neg (by omega), if_neg (by omega), okay _ hk2]
    exact ⟨_, rfl⟩
  · intro g hg
    by_cases h0 : Nat.sqrt k = 0
    · rw [if_pos h0] at hg; exact absurd hg (by simp)
    by_cases h1 : Nat.sqrt k = 1
    · rw [if_neg h0, if_pos h1] at hg; exact absurd hg (by simp)
    rw [if_neg h0, if_neg h1] at hg
    by_cases h : Nat.sqrt k * Nat.sqrt k = k
    · rw [okay _ h] at hg
      obtain rfl := Except.ok.inj hg
      refine ⟨h, by simp, ?_⟩
      change (List.range (Nat.sqrt k * Nat.sqrt k)).drop k = []
      rw [h]
      simp
    · rw [bad _ h] at hg
      exact absurd hg (by simp)
  · intro h
    rw [if_pos (s0.mpr h)]
  · intro h1 h2
    have := s1.mpr ⟨h1, h2⟩
    rw [if_neg (by omega), if_pos this]
  · intro h4 hn
    have h0 : Nat.sqrt k ≠ 0 := fun h => by have := s0.mp h; omega
    have h1 : Nat.sqrt k ≠ 1 := fun h => by have := s1.mp h; omega
    rw [if_neg h0, if_neg h1, bad _ fun h => hn _ h.symm]

/-- Case: the 25 panels of the scripts, out of 40 eigenvectors. -/
example (evecs : Fin 40 → Fin (3 + 2) → ℝ) (Λ1 : Form ℝ) (E1 : Matrix (Fin 3) (Fin Λ1.dims.n) ℝ) (F : V3 → V3) (x : List V3) :
    ∃ g, plotEigenvectorsGrid evecs Λ1 E1 F 1 x 64 25 = .ok g := (C120_grid_exists_iff evecs Λ1 E1 F 1 x 64 25).1.mpr ⟨5, by norm_num, by norm_num⟩

/-- Case: only 20 eigenvectors are available. -/
example (evecs : Fin 20 → Fin (3 + 2) → ℝ) (Λ1 : Form ℝ) (E1 : Matrix (Fin 3) (Fin Λ1.dims.n) ℝ) (F : V3 → V3) (x : List V3) :
    plotEigenvectorsGrid evecs Λ1 E1 F 1 x 64 25 = .error .indexError :=
  (C120_grid_exists_iff evecs Λ1 E1 F 1 x 64 25).2.2.2.2 (by norm_num) fun s hs => by
    have h1 : min 25 20 = 20 := by norm_num
    rw [h1] at hs
    have : s ≤ 4 := by nlinarith
    interval_cases s <;> omega

/-- The panels of a figure, by number. -/
theorem grid_panel {g : ModeGrid} (hg : plotEigenvectorsGrid evecs Λ1 E1 F ax x nx num = .ok g) (i : Fin c) (hi : i.1 < num) :
    g.panels[i.1]? = some (panelEntry Λ1 E1 F ax x nx (firstPart (evecs i))) := by
  have hs := (C120_grid_exists_iff evecs Λ1 E1 F ax x nx num).1.mp ⟨g, hg⟩
  obtain ⟨s, hs2, hk'⟩ := hs
  have e : Nat.sqrt (min num c) = s := by rw [hk']; exact Nat.sqrt_eq s
  unfold plotEigenvectorsGrid at hg
  simp only [clip_eq] at hg
  rw [e, if_neg (by omega), if_neg (by omega), drawPanels_ok _ _ _ fun i hi => by rw [← hk']; exact List.mem_range.mp hi] at hg
  obtain rfl := Except.ok.inj hg
  have hlt : i.1 < min num c := by have := i.2; omega
  change ((List.range (min num c)).map _)[i.1]? = _
  rw [List.getElem?_map, List.getElem?_range hlt]
  simp only [Option.map_some, dif_pos i.2]

end grid

/-- Entry of a field of values on the section. -/
theorem section_entry {α : Type} (f : V3 → α) (eps x3 : ℝ) {nx i j : Nat} (hi : i < nx) (hj : j < nx) :
    reshape2 ((sectionPoints eps x3 nx).map f) nx i j =
      some (f ![(linspace eps (1 - eps) nx)[j]'(by rwa [linspace_length]), (linspace eps (1 - eps) nx)[i]'(by rwa [linspace_length]), x3]) := by
  have h := meshPoints_getElem (linspace eps (1 - eps) nx) (linspace eps (1 - eps) nx) [x3] j i 0 (by rwa [linspace_length]) (by rwa [linspace_length]) (by simp)
  simp only [List.length_singleton, Nat.mul_one, Nat.add_zero, List.getElem_singleton, linspace_length] at h
  unfold reshape2 sectionPoints
  rw [List.getElem?_map, h]
  rfl

theorem linspace_bounds {eps : ℝ} (he : 0 < eps) (he' : eps ≤ 1 / 2) {nx j : Nat} (hj : j < nx) :
    eps ≤ (linspace eps (1 - eps) nx)[j]'(by rwa [linspace_length]) ∧ (linspace eps (1 - eps) nx)[j]'(by rwa [linspace_length]) ≤ 1 - eps := by
  unfold linspace
  rw [List.getElem_map, List.getElem_range]
  split
  · exact ⟨le_rfl, by linarith⟩
  · rename_i hn
    have h1 : (0 : ℝ) < nx - 1 := by
      have : (2 : ℝ) ≤ nx := by exact_mod_cast (by omega : 2 ≤ nx)
      linarith
    have h2 : (j : ℝ) ≤ nx - 1 := by
      have : ((j + 1 : ℕ) : ℝ) ≤ nx := by exact_mod_cast hj
      push_cast at this
      linarith
    have h0 : (0 : ℝ) ≤ j := Nat.cast_nonneg j
    have e : (j : ℝ) * ((1 - eps - eps) / (nx - 1)) = (j / (nx - 1)) * (1 - eps - eps) := by ring
    have f0 : 0 ≤ (j : ℝ) / (nx - 1) := by positivity
    have f1 : (j : ℝ) / (nx - 1) ≤ 1 := (div_le_one h1).mpr h2
    rw [e]
    constructor
    · nlinarith
    · nlinarith

/-- **C120** what a panel shows. In a figure of eigenvectors on the grid of the script, panel number `i` shows eigenvector number `i`: at row `a` and column `b` the position is the
image of the logical point `(r_b, θ_a, x3)` (first and `ax`-th Cartesian coordinate) and the value is the length of the physical field there, the vector `w` with `DFᵀ w` equal to the
discrete 1-form that has the first `m` entries of the eigenvector as coefficients; provided the map is not degenerate there (determinant of at least `1e-10`). -/
theorem C120_panel {m r c : Nat} (evecs : Fin c → Fin (m + r) → ℝ) (Λ1 : Form ℝ) (E1 : Matrix (Fin m) (Fin Λ1.dims.n) ℝ) (F : V3 → V3) (ax : Fin 3) (eps x3 : ℝ) (nx num : Nat)
    {g : ModeGrid} (hg : plotEigenvectorsGrid evecs Λ1 E1 F ax (sectionPoints eps x3 nx) nx num = .ok g) (i : Fin c) (hi : i.1 < num) {a b : Nat} (ha : a < nx) (hb : b < nx)
    (p : V3) (hp : p = ![(linspace eps (1 - eps) nx)[b]'(by rwa [linspace_length]), (linspace eps (1 - eps) nx)[a]'(by rwa [linspace_length]), x3])
    (hJ : 1e-10 ≤ |jacobianDeterminant F p|) :
    ∃ w : V3, ((jacfwd F p)ᵀ *ᵥ w = fun k : Fin 3 => discreteFunction Λ1 (fun j : Fin m => evecs i (Fin.castAdd r j)) E1 (p 0, p 1, p 2) k) ∧
      (g.panels[i.1]?.bind fun f => f a b) = some (F p 0, F p ax, √(w ⬝ᵥ w)) := by
  rw [grid_panel evecs Λ1 E1 F ax _ nx num hg i hi]
  obtain ⟨i1, i2⟩ := C21_inv33_is_inverse _ hJ
  refine ⟨modeField Λ1 E1 F (firstPart (evecs i)) p, ?_, ?_⟩
  · unfold modeField Pushforward.vector
    rw [if_pos rfl, Option.getD_some, mulVec_mulVec, ← transpose_mul, i1, transpose_one, one_mulVec]
    rfl
  · change panelEntry Λ1 E1 F ax (sectionPoints eps x3 nx) nx (firstPart (evecs i)) a b = _
    unfold panelEntry
    rw [section_entry F eps x3 ha hb, section_entry _ eps x3 ha hb, ← hp]
    rfl

/-- **C120** for the cavity scripts the map is regular at all points of the figure, and the figure is a true section: the cylinder is cut at the height `h x3` and the torus in the
plane `y = 0`, so the coordinate that is not drawn is constant. -/
theorem C120_sections {a h eps : ℝ} {nx i j : Nat} (he : 0 < eps) (he' : eps ≤ 1 / 2) (hi : i < nx) (hj : j < nx) (p : ℝ → V3)
    (hp : ∀ z, p z = ![(linspace eps (1 - eps) nx)[j]'(by rwa [linspace_length]), (linspace eps (1 - eps) nx)[i]'(by rwa [linspace_length]), z]) :
    (1e-10 ≤ 2 * π * a ^ 2 * h * eps → ∀ z, 1e-10 ≤ |jacobianDeterminant (cylinderMap a h) (p z)| ∧ cylinderMap a h (p z) 2 = h * z) ∧
    (∀ R0, 0 < a → 1e-10 ≤ (2 * π) ^ 2 * a ^ 2 * eps * (R0 - a) → 1e-10 ≤ |jacobianDeterminant (toroidMap a 1 R0) (p 0)| ∧ toroidMap a 1 R0 (p 0) 1 = 0) := by
  obtain ⟨b1, b2⟩ := linspace_bounds he he' hj
  constructor
  · intro ht z
    have e0 : p z 0 = (linspace eps (1 - eps) nx)[j]'(by rwa [linspace_length]) := by rw [hp]; rfl
    constructor
    · rw [C63_cylinder_jacobian, e0]
      refine le_trans ?_ (le_abs_self _)
      have hpos : 0 < 2 * π * a ^ 2 * h := by
        by_contra hn
        have := mul_nonpos_of_nonpos_of_nonneg (not_lt.mp hn) he.le
        norm_num at ht
        linarith
      exact ht.trans (mul_le_mul_of_nonneg_left b1 hpos.le)
    · rw [hp]
      simp [cylinderMap]
  · intro R0 ha ht
    have e0 : p 0 0 = (linspace eps (1 - eps) nx)[j]'(by rwa [linspace_length]) := by rw [hp]; rfl
    obtain ⟨t, ht'⟩ : ∃ t, t = (linspace eps (1 - eps) nx)[j]'(by rwa [linspace_length]) := ⟨_, rfl⟩
    rw [← ht'] at b1 b2 e0
    constructor
    · rw [C59_jacobian, e0]
      refine le_trans ?_ (le_abs_self _)
      have hc := neg_one_le_cos (2 * π * p 0 1)
      have hR : 0 < R0 - a := by
        by_contra hn
        have := mul_nonpos_of_nonneg_of_nonpos (by positivity : 0 ≤ (2 * π) ^ 2 * a ^ 2 * eps) (not_lt.mp hn)
        norm_num at ht
        linarith
      have h1 : R0 - a ≤ R0 + a * t * cos (2 * π * p 0 1) := by
        have : a * t * (-1) ≤ a * t * cos (2 * π * p 0 1) := mul_le_mul_of_nonneg_left hc (by nlinarith)
        nlinarith
      calc (1e-10 : ℝ) ≤ (2 * π) ^ 2 * a ^ 2 * eps * (R0 - a) := ht
        _ ≤ (2 * π) ^ 2 * a ^ 2 * 1 * t * (R0 + a * t * cos (2 * π * p 0 1)) := by
          rw [mul_one]
          exact mul_le_mul (mul_le_mul_of_nonneg_left b1 (by positivity)) h1 hR.le (by nlinarith [sq_nonneg (2 * π), sq_nonneg a, mul_nonneg (sq_nonneg (2 * π)) (sq_nonneg a)])
    · have e2 : p 0 2 = 0 := by rw [hp]; rfl
      simp [toroidMap, e2]

/-- Case: the two scripts, `a = h = 1`, `R0 = 2.1`, `64²` points with a margin of `1e-5`. -/
example : ∀ p : ℝ → V3, (∀ z, p z = ![(linspace 1e-5 (1 - 1e-5) 64)[5]'(by rw [linspace_length]; norm_num), (linspace 1e-5 (1 - 1e-5) 64)[7]'(by rw [linspace_length]; norm_num), z]) →
    1e-10 ≤ |jacobianDeterminant (cylinderMap 1 1) (p (1 / 2))| ∧ 1e-10 ≤ |jacobianDeterminant (toroidMap 1 1 2.1) (p 0)| := by
  intro p hp
  have h3 := pi_gt_three
  obtain ⟨h1, h2⟩ := C120_sections (a := 1) (h := 1) (eps := 1e-5) (nx := 64) (i := 7) (j := 5) (by norm_num) (by norm_num) (by norm_num) (by norm_num) p hp
  refine ⟨(h1 (by norm_num; nlinarith) _).1, (h2 2.1 (by norm_num) (by norm_num; nlinarith)).1⟩

/-- **C120** the figure does not depend on the scaling of the eigenvectors by signs, nor on the entries after the first `m` (the multiplier of the saddle point problem). -/
theorem C120_grid_invariant {m r c : Nat} (evecs evecs' : Fin c → Fin (m + r) → ℝ) (Λ1 : Form ℝ) (E1 : Matrix (Fin m) (Fin Λ1.dims.n) ℝ) (F : V3 → V3) (ax : Fin 3) (x : List V3) (nx num : Nat)
    (h : ∀ i, ∃ s : ℝ, s ^ 2 = 1 ∧ ∀ j : Fin m, evecs' i (Fin.castAdd r j) = s * evecs i (Fin.castAdd r j)) :
    plotEigenvectorsGrid evecs' Λ1 E1 F ax x nx num = plotEigenvectorsGrid evecs Λ1 E1 F ax x nx num := by
  have key : ∀ {d d' : Fin m → ℝ} {s : ℝ}, s ^ 2 = 1 → d' = s • d → panelEntry Λ1 E1 F ax x nx d' = panelEntry Λ1 E1 F ax x nx d := by
    rintro d d' s hs rfl
    have hn : (fun p => vnorm (modeField Λ1 E1 F (s • d) p)) = fun p => vnorm (modeField Λ1 E1 F d p) := by
      funext p
      have e1 : modeForm Λ1 E1 (s • d) p = s • modeForm Λ1 E1 d p := by
        funext k
        simp only [modeForm, discreteFunction, smul_vecMul, smul_dotProduct, Pi.smul_apply]
      have e2 : modeField Λ1 E1 F (s • d) p = s • modeField Λ1 E1 F d p := by
        unfold modeField Pushforward.vector
        rw [if_pos rfl, if_pos rfl, Option.getD_some, Option.getD_some, e1, mulVec_smul]
      unfold vnorm
      rw [e2, smul_dotProduct, dotProduct_smul, smul_smul, ← sq, hs, one_smul]
    funext i j
    unfold panelEntry
    rw [hn]
  unfold plotEigenvectorsGrid
  simp only
  have hd : (fun i : Nat => panelEntry Λ1 E1 F ax x nx (firstPart (if h : i < c then evecs' ⟨i, h⟩ else 0))) =
      fun i : Nat => panelEntry Λ1 E1 F ax x nx (firstPart (if h : i < c then evecs ⟨i, h⟩ else 0)) := by
    funext i
    by_cases hi : i < c
    · simp only [dif_pos hi]
      obtain ⟨s, hs, hv⟩ := h ⟨i, hi⟩
      exact key hs (funext hv)
    · simp only [dif_neg hi]
  rw [hd]

/-- **C120** the arrows of the torus mode start at the image of their grid point and show the first and the third component of the physical field there. -/
theorem C120_arrows {m : Nat} (Λ1 : Form ℝ) (E1 : Matrix (Fin m) (Fin Λ1.dims.n) ℝ) (F : V3 → V3) (eps x3 : ℝ) {nx a b : Nat} (ha : a < nx) (hb : b < nx) (dof : Fin m → ℝ) (p : V3)
    (hp : p = ![(linspace eps (1 - eps) nx)[b]'(by rwa [linspace_length]), (linspace eps (1 - eps) nx)[a]'(by rwa [linspace_length]), x3])
    (hJ : 1e-10 ≤ |jacobianDeterminant F p|) :
    ∃ w : V3, ((jacfwd F p)ᵀ *ᵥ w = fun k : Fin 3 => discreteFunction Λ1 dof E1 (p 0, p 1, p 2) k) ∧
      modeArrow Λ1 E1 F (sectionPoints eps x3 nx) nx dof a b = some ((F p 0, F p 2), (w 0, w 2)) := by
  obtain ⟨i1, i2⟩ := C21_inv33_is_inverse _ hJ
  refine ⟨modeField Λ1 E1 F dof p, ?_, ?_⟩
  · unfold modeField Pushforward.vector
    rw [if_pos rfl, Option.getD_some, mulVec_mulVec, ← transpose_mul, i1, transpose_one, one_mulVec]
    rfl
  · unfold modeArrow
    rw [section_entry F eps x3 ha hb, section_entry _ eps x3 ha hb, ← hp]

/-! ## The reconstruction of a drum -/

/-- The radius with any degrees in the constant directions. -/
theorem radius_spline {nm pm p1 p2 : Nat} {Λmap : Form ℝ} (hm : Form.mk? 0 (nm, 1, 1) (pm, p1, p2) ("periodic", "constant", "constant") = .ok Λmap)
    (aHat : Nat → ℝ) (χ : ℝ) : drumRadius Λmap aHat χ = ∑ i ∈ range nm, aHat i * Λmap.Λ0.evaluate χ (i : Int) := by
  have hw := Form.mk?_wf hm
  obtain ⟨_, hd, s0, s1, s2, _⟩ := Form.mk?_inv hm
  have hn : Λmap.dims.n = nm := by rw [hd]; simp [Dims.n, Dims.n1, Dims.n2, Dims.n3]
  have hk : Λmap.dims.k = 0 := by rw [hd]
  unfold drumRadius discreteFunction
  rw [vecMul_one]
  unfold dotProduct
  rw [Fin.sum_univ_eq_sum_range (fun i => aHat i * Λmap.evaluate (χ, 0, 0) i 0) Λmap.dims.n, hn]
  refine sum_congr rfl fun i hi => ?_
  have hi' := mem_range.mp hi
  have e : Λmap.dims.ravelIndex 0 i 0 0 = i := by
    rw [hd]
    unfold Dims.ravelIndex Jax.ravelMultiIndex3
    simp
    omega
  have hr : Λmap.dims.InRange 0 i 0 0 := by
    rw [hd]
    unfold Dims.InRange Dims.cshape Dims.shape
    simp
    omega
  have := Λmap.evaluate_ravel hw hr (χ, 0, 0) 0 (by rw [hd]; simp [Dims.shape])
  rw [e, if_pos rfl] at this
  rw [this]
  unfold Spec.basisValue Spec.factor Spec.isDeriv
  rw [hk]
  simp
  rw [C09_constant_evaluates_to_one 1 p1 "constant" (Or.inl rfl) _ s1, C09_constant_evaluates_to_one 1 p2 "constant" (Or.inl rfl) _ s2]
  simp

/-- A constant basis and its derivative can be built with degree 0 and with degree 1. -/
theorem constant_ok (p : Nat) (hp : p = 0 ∨ p = 1) : ∃ (s : SplineBasis ℝ) (d : DerivativeSpline ℝ), SplineBasis.mk? 1 p "constant" = .ok s ∧ DerivativeSpline.mk? s = .ok d := by
  refine ⟨⟨1, p, "constant", [0, 1]⟩, ⟨1, p, "constant", [0, 1], ⟨1, p, "constant", [0, 1]⟩⟩, ?_, ?_⟩
  · unfold SplineBasis.mk? SplineBasis.initKnots
    rcases hp with rfl | rfl <;> simp
  · unfold DerivativeSpline.mk? SplineBasis.mk?
    rcases hp with rfl | rfl <;> simp

/-- The form of the figure exists if and only if the form of the map does. -/
theorem plot_form_iff (nm pm : Nat) (p1 p2 : Nat) (h1 : p1 = 0 ∨ p1 = 1) (h2 : p2 = 0 ∨ p2 = 1) :
    (∃ Λ : Form ℝ, Form.mk? 0 (nm, 1, 1) (pm, p1, p2) ("periodic", "constant", "constant") = .ok Λ) ↔
    ∃ (s : SplineBasis ℝ) (d : DerivativeSpline ℝ), SplineBasis.mk? nm pm "periodic" = .ok s ∧ DerivativeSpline.mk? s = .ok d := by
  constructor
  · rintro ⟨Λ, h⟩
    obtain ⟨_, _, s0, _, _, d0, _⟩ := Form.mk?_inv h
    exact ⟨_, _, s0, d0⟩
  · rintro ⟨s, d, hs, hd⟩
    obtain ⟨s1, d1, e1, f1⟩ := constant_ok p1 h1
    obtain ⟨s2, d2, e2, f2⟩ := constant_ok p2 h2
    unfold Form.mk?
    simp only [hs, e1, e2, hd, f1, f2]
    exact ⟨_, if_pos (by unfold Dims.validDegree; simp)⟩

theorem same_radius {nm pm p1 p2 p1' p2' : Nat} {Λ Λ' : Form ℝ} (h : Form.mk? 0 (nm, 1, 1) (pm, p1, p2) ("periodic", "constant", "constant") = .ok Λ)
    (h' : Form.mk? 0 (nm, 1, 1) (pm, p1', p2') ("periodic", "constant", "constant") = .ok Λ') (aHat : Nat → ℝ) : drumRadius Λ aHat = drumRadius Λ' aHat := by
  funext χ
  rw [radius_spline h, radius_spline h']
  have e := (Form.mk?_inv h).2.2.1.symm.trans (Form.mk?_inv h').2.2.1
  rw [Except.ok.inj e]

theorem numbered_get {l : List ℝ} {k : Nat} (hk : k < l.length) : (numbered l)[k]? = some (k + 1, l[k]) := by
  unfold numbered
  rw [List.getElem?_eq_getElem (by simpa using hk)]
  simp

section reconstruction
variable (D : DeRham) (chol : Matrix (Fin D.m0) (Fin D.m0) ℝ → Matrix (Fin D.m0) (Fin D.m0) ℝ)
  (eigh : Matrix (Fin D.m0) (Fin D.m0) ℝ → (Fin D.m0 → ℝ) × Matrix (Fin D.m0) (Fin D.m0) ℝ) (nm pm : Nat) (aHat : Nat → ℝ) (targetRadius : ℝ → ℝ) (targetEvs : List ℝ)
  (history : Option (List ℝ))

theorem lossPanel_cases : (history = some [] ∧ lossPanel history = .error .indexError) ∨ (history ≠ some [] ∧ ∃ l, lossPanel history = .ok l) := by
  match history with
  | none => exact .inr ⟨by simp, _, rfl⟩
  | some [] => exact .inl ⟨rfl, rfl⟩
  | some (a :: l) => exact .inr ⟨by simp, _, rfl⟩

/-- **C120** when a reconstruction is drawn (for a sequence with degrees of freedom): if and only if the radius is a valid spline, there are at least as many eigenvalues as targets,
and the loss history, if one is passed, is not empty. -/
theorem C120_reconstruction_iff (h0 : 0 < D.m0) :
    (∃ R, plotReconstruction D chol eigh nm pm aHat targetRadius targetEvs history = .ok R) ↔
      (∃ Λ : Form ℝ, Form.mk? 0 (nm, 1, 1) (pm, 0, 0) ("periodic", "constant", "constant") = .ok Λ) ∧ targetEvs.length ≤ D.m0 ∧ history ≠ some [] := by
  have hlen : ∀ w : Fin D.m0 → ℝ, ((List.ofFn w).take targetEvs.length).length = min targetEvs.length D.m0 := fun w => by simp
  unfold plotReconstruction
  constructor
  · rintro ⟨R, hR⟩
    split at hR
    · rename_i Λp Λ hp hm
      rw [dif_pos h0] at hR
      simp only [hlen] at hR
      split_ifs at hR with hl
      refine ⟨⟨Λ, hm⟩, by omega, ?_⟩
      rcases lossPanel_cases history with ⟨_, e⟩ | ⟨hn, _⟩
      · rw [e] at hR; cases hR
      · exact hn
    · cases hR
  · rintro ⟨⟨Λ, hm⟩, hl, hh⟩
    obtain ⟨Λp, hp⟩ := (plot_form_iff nm pm 1 1 (.inr rfl) (.inr rfl)).mpr ((plot_form_iff nm pm 0 0 (.inl rfl) (.inl rfl)).mp ⟨Λ, hm⟩)
    simp only [hm, hp, dif_pos h0, hlen]
    rw [if_neg (by omega)]
    rcases lossPanel_cases history with ⟨e, _⟩ | ⟨_, l, e⟩
    · exact absurd e hh
    · rw [e]; exact ⟨_, rfl⟩

variable {nm pm} {Λmap : Form ℝ} (hm : Form.mk? 0 (nm, 1, 1) (pm, 0, 0) ("periodic", "constant", "constant") = .ok Λmap) (h0 : 0 < D.m0)
  {R : Reconstruction} (hR : plotReconstruction D chol eigh nm pm aHat targetRadius targetEvs history = .ok R)
include hm h0 hR

theorem reconstruction_parts : targetEvs.length ≤ D.m0 ∧ R.fitted = ((linspace 0 1 200).map fun t => (t, drumRadius Λmap aHat t)) ∧
    R.target = ((linspace 0 1 200).map fun t => (t, targetRadius t)) ∧
    R.contour = drumContour D (drumshapeMap (drumRadius Λmap aHat)) ((getEvs D chol eigh Λmap aHat).2.col ⟨0, h0⟩) ∧
    R.targetSpectrum = numbered targetEvs ∧ R.spectrum = numbered ((List.ofFn (getEvs D chol eigh Λmap aHat).1).take targetEvs.length) ∧
    R.differences = numbered (relDiff ((List.ofFn (getEvs D chol eigh Λmap aHat).1).take targetEvs.length) targetEvs) ∧ lossPanel history = .ok R.loss := by
  have hle := ((C120_reconstruction_iff D chol eigh nm pm aHat targetRadius targetEvs history h0).mp ⟨R, hR⟩).2.1
  obtain ⟨Λp, hp⟩ := (plot_form_iff nm pm 1 1 (.inr rfl) (.inr rfl)).mpr ((plot_form_iff nm pm 0 0 (.inl rfl) (.inl rfl)).mp ⟨Λmap, hm⟩)
  have hlen : ∀ w : Fin D.m0 → ℝ, ((List.ofFn w).take targetEvs.length).length = min targetEvs.length D.m0 := fun w => by simp
  unfold plotReconstruction at hR
  simp only [hm, hp, dif_pos h0, hlen] at hR
  rw [if_neg (by omega)] at hR
  have er := same_radius hp hm aHat
  rcases lossPanel_cases history with ⟨_, e⟩ | ⟨_, l, e⟩
  · rw [e] at hR; cases hR
  · rw [e] at hR
    obtain rfl := Except.ok.inj hR
    rw [er]
    exact ⟨hle, rfl, rfl, rfl, rfl, rfl, rfl, e⟩

/-- **C120** what the picture of a reconstruction shows. The fitted radius is the radius of the map whose spectrum is computed, although the figure builds its spline with degree 1 in
the trivial directions; the contour shows the first eigenfunction on the images of the points `(r_j, θ_i, 0)`, in the first and third coordinate, up to the sign chosen below;
number `k + 1` of the spectra are the `k`-th target and the `k`-th eigenvalue, and of the differences `|λ - λ*| / |λ*|`, relative to the target (the label of the axis divides by `λ`). -/
theorem C120_reconstruction (k : Nat) (hk : k < targetEvs.length) (i j : Nat) (hi : i < 64) (hj : j < 64) :
    ∃ hk' : k < D.m0,
    R.fitted = ((linspace 0 1 200).map fun t => (t, drumRadius Λmap aHat t)) ∧ R.target = ((linspace 0 1 200).map fun t => (t, targetRadius t)) ∧
    (∀ p : V3, p = ![(linspace 1e-6 (1 - 1e-6) 64)[j]'(by rwa [linspace_length]), (linspace 0 1 64)[i]'(by rwa [linspace_length]), 0] →
      R.contour i j = some (drumshapeMap (drumRadius Λmap aHat) p 0, drumshapeMap (drumRadius Λmap aHat) p 2,
        signedMode D ((getEvs D chol eigh Λmap aHat).2.col ⟨0, h0⟩) p)) ∧
    R.targetSpectrum.length = targetEvs.length ∧ R.spectrum.length = targetEvs.length ∧ R.differences.length = targetEvs.length ∧
    R.targetSpectrum[k]? = some (k + 1, targetEvs[k]) ∧ R.spectrum[k]? = some (k + 1, (getEvs D chol eigh Λmap aHat).1 ⟨k, hk'⟩) ∧
    R.differences[k]? = some (k + 1, |(getEvs D chol eigh Λmap aHat).1 ⟨k, hk'⟩ - targetEvs[k]| / |targetEvs[k]|) := by
  obtain ⟨hle, e1, e2, e3, e4, e5, e6, e7⟩ := reconstruction_parts D chol eigh aHat targetRadius targetEvs history hm h0 hR
  refine ⟨by omega, e1, e2, ?_, ?_, ?_, ?_, ?_, ?_, ?_⟩
  · intro p hp
    rw [e3]
    have key : ∀ {α : Type} (f : V3 → α), reshape2 (drumGrid.map f) 64 i j = some (f p) := by
      intro α f
      have h := meshPoints_getElem (linspace 1e-6 (1.0 - 1e-6) 64) (linspace 0 1.0 64) [0] j i 0 (by rwa [linspace_length]) (by rwa [linspace_length]) (by simp)
      simp only [List.length_singleton, Nat.mul_one, Nat.add_zero, List.getElem_singleton, linspace_length] at h
      unfold reshape2 drumGrid
      rw [List.getElem?_map, h, hp]
      have o : (1.0 : ℝ) = 1 := by norm_num
      simp only [o]
      rfl
    unfold drumContour
    rw [key, key]
  · rw [e4]; simp [numbered]
  · rw [e5]; simp [numbered]; omega
  · rw [e6]; simp [numbered, relDiff]; omega
  · rw [e4]; exact numbered_get hk
  · rw [e5, numbered_get (by simp; omega)]
    simp
  · rw [e6, numbered_get (by simp [relDiff]; omega)]
    simp [relDiff, abs_div]

/-- **C120** the squares of the differences drawn add up to the loss of these parameters. -/
theorem C120_differences_loss :
    (R.differences.map fun d => d.2 ^ 2).sum = fitEvs targetEvs.length (getEvs D chol eigh Λmap aHat).1 (fun k => targetEvs.getD k.1 0) := by
  obtain ⟨hle, _, _, _, _, _, e6, _⟩ := reconstruction_parts D chol eigh aHat targetRadius targetEvs history hm h0 hR
  obtain ⟨w, hw⟩ : ∃ w, w = (getEvs D chol eigh Λmap aHat).1 := ⟨_, rfl⟩
  rw [e6, ← hw]
  have e : (numbered (relDiff ((List.ofFn w).take targetEvs.length) targetEvs)).map (fun d => d.2 ^ 2) =
      (List.range targetEvs.length).map fun k : Nat => ((if h : k < D.m0 then w ⟨k, h⟩ else 0) - targetEvs.getD k 0) ^ 2 / targetEvs.getD k 0 ^ 2 := by
    refine List.ext_getElem (by simp [numbered, relDiff]; omega) fun k h1 h2 => ?_
    have hk : k < targetEvs.length := by simpa using h2
    have hk' : k < D.m0 := by omega
    have hk2 : (targetEvs[k]?).getD 0 = targetEvs[k] := by rw [List.getElem?_eq_getElem hk]; rfl
    simp [numbered, relDiff, hk', sq_abs, div_pow, hk2]
  rw [e]
  unfold fitEvs
  rw [Finset.sum_filter]
  have e2 : ∀ k : Fin D.m0, (if k.1 < targetEvs.length then (w k - targetEvs.getD k.1 0) ^ 2 / targetEvs.getD k.1 0 ^ 2 else 0) =
      (fun k : Nat => if k < targetEvs.length then ((if h : k < D.m0 then w ⟨k, h⟩ else 0) - targetEvs.getD k 0) ^ 2 / targetEvs.getD k 0 ^ 2 else 0) k.1 := by
    intro k
    simp only [dif_pos k.2]
  rw [Finset.sum_congr rfl fun k _ => e2 k]
  rw [Fin.sum_univ_eq_sum_range (fun k : Nat => if k < targetEvs.length then ((if h : k < D.m0 then w ⟨k, h⟩ else 0) - targetEvs.getD k 0) ^ 2 / targetEvs.getD k 0 ^ 2 else 0) D.m0, ← Finset.sum_filter]
  have e3 : (range D.m0).filter (fun k => k < targetEvs.length) = range targetEvs.length := by
    ext k
    simp only [mem_filter, mem_range]
    omega
  rw [e3]
  rfl

end reconstruction

/-- **C120** the panel of the losses: point `k` is the `k`-th recorded loss, and the axis ends at 1.1 times the first one. -/
theorem C120_loss_panel (losses : List ℝ) (h : losses ≠ []) :
    ∃ pts, lossPanel (some losses) = .ok (some (pts, 1.1 * losses.head h)) ∧ pts.length = losses.length ∧
      ∀ k (hk : k < losses.length), pts[k]? = some (k, losses[k]) := by
  match losses, h with
  | a :: l, _ =>
    refine ⟨_, rfl, by simp, fun k hk => ?_⟩
    rw [List.getElem?_eq_getElem (by simpa using hk)]
    simp

example := C120_loss_panel [3, 2, 2.5] (by simp)

/-! ## The sign of the eigenfunction -/

theorem drumMode_smul (D : DeRham) (s : ℝ) (v : Fin D.m0 → ℝ) (x : V3) : drumMode D (s • v) x = s * drumMode D v x := by
  unfold drumMode discreteFunction
  rw [smul_vecMul, smul_dotProduct, smul_eq_mul]

/-- **C120** the sign: the function drawn is the eigenfunction or its negative, it is not negative on the axis, and if it does not vanish there it is the same for `v` and `-v`. If it
does vanish on the axis, the sign drawn is the arbitrary one of the solver. -/
theorem C120_sign (D : DeRham) (v : Fin D.m0 → ℝ) :
    (∃ s : ℝ, (s = 1 ∨ s = -1) ∧ ∀ x, signedMode D v x = s * D.phys0 v x 0) ∧ 0 ≤ signedMode D v ![0, 0, 0] ∧
    (D.phys0 v ![0, 0, 0] 0 ≠ 0 → ∀ x, signedMode D (-v) x = signedMode D v x) ∧
    (D.phys0 v ![0, 0, 0] 0 = 0 → ∀ x, signedMode D (-v) x = -signedMode D v x) := by
  have e : ∀ x, D.phys0 v x 0 = drumMode D v x := fun _ => rfl
  simp only [e]
  have hneg : ∀ x, drumMode D (-v) x = -drumMode D v x := fun x => by
    have := drumMode_smul D (-1) v x
    rwa [neg_one_smul, neg_one_mul] at this
  unfold signedMode
  refine ⟨?_, ?_, ?_, ?_⟩
  · by_cases h : drumMode D v ![0, 0, 0] < 0
    · exact ⟨-1, .inr rfl, fun x => by rw [if_pos h, neg_one_mul]⟩
    · exact ⟨1, .inl rfl, fun x => by rw [if_neg h, one_mul]⟩
  · split_ifs with h
    · linarith
    · exact not_lt.mp h
  · intro h x
    rw [hneg, hneg]
    rcases lt_or_gt_of_ne h with h | h
    · rw [if_neg (by linarith), if_pos h]
    · rw [if_pos (by linarith), if_neg (by linarith), neg_neg]
  · intro h x
    rw [hneg, hneg, h, neg_zero, if_neg (lt_irrefl _), if_neg (lt_irrefl _)]

/-- Eigenvectors of a simple eigenvalue are unique up to their sign. -/
theorem simple_vector {n : Nat} {A M V V' : Matrix (Fin n) (Fin n) ℝ} {w w' : Fin n → ℝ} (h : IsGEigh A M w V) (h' : IsGEigh A M w' V') (hA : Aᵀ = A) (hM : SPD M) (i : Fin n)
    (hi : ∀ k, k ≠ i → w k ≠ w i) : V'.col i = V.col i ∨ V'.col i = -V.col i := by
  obtain rfl := geigh_unique h h' hA hM
  have hc : ∀ k, k ≠ i → V.col k ⬝ᵥ M *ᵥ V'.col i = 0 := by
    intro k hk
    have e := h.coef_mul hA hM.1 k (V'.col i)
    rw [h'.col, dotProduct_smul, smul_eq_mul] at e
    have := hi k hk
    have e2 : (w k - w i) * (V.col k ⬝ᵥ M *ᵥ V'.col i) = 0 := by linarith
    exact (mul_eq_zero.mp e2).resolve_left (sub_ne_zero.mpr this)
  have ex := h.expand (V'.col i)
  rw [Finset.sum_eq_single i (fun k _ hk => by rw [hc k hk, zero_smul]) (fun hn => absurd (mem_univ i) hn)] at ex
  obtain ⟨s, hs⟩ : ∃ s, s = V.col i ⬝ᵥ M *ᵥ V'.col i := ⟨_, rfl⟩
  rw [← hs] at ex
  have h1 := h'.col_dot i i
  rw [if_pos rfl, ex, mulVec_smul, dotProduct_smul, smul_dotProduct, h.col_dot i i, if_pos rfl] at h1
  simp only [smul_eq_mul, mul_one] at h1
  rcases mul_self_eq_one_iff.mp h1 with e | e
  · left; rw [ex, e, one_smul]
  · right; rw [ex, e, neg_one_smul]

/-- **C120** the picture is determined by the shape: for a map that is regular at the quadrature points, if the first eigenvalue is simple and its eigenfunction does not vanish on the
axis, all correct solvers give the same picture. -/
theorem C120_picture_unique {ns ps : Nat × Nat × Nat} {q : Nat} {types : String × String × String} {F0 : V3 → V3} {polar dirichlet : Bool} {D : DeRham}
    (h : Admissible ns ps q types F0 polar dirichlet D) {nm pm : Nat} {Λmap : Form ℝ} (hm : Form.mk? 0 (nm, 1, 1) (pm, 0, 0) ("periodic", "constant", "constant") = .ok Λmap)
    (aHat : Nat → ℝ) (hF : ∀ x ∈ D.S.Q.x, 1e-5 ≤ jacobianDeterminant (drumshapeMap (drumRadius Λmap aHat)) (toV3 x))
    {chol chol' eigh eigh'} (hs : SolverOK (n := D.m0) chol eigh) (hs' : SolverOK (n := D.m0) chol' eigh') (h0 : 0 < D.m0)
    (hsimple : ∀ k, k ≠ ⟨0, h0⟩ → (getEvs D chol eigh Λmap aHat).1 k ≠ (getEvs D chol eigh Λmap aHat).1 ⟨0, h0⟩)
    (haxis : drumMode D ((getEvs D chol eigh Λmap aHat).2.col ⟨0, h0⟩) ![0, 0, 0] ≠ 0) (targetRadius : ℝ → ℝ) (targetEvs : List ℝ) (history : Option (List ℝ)) :
    plotReconstruction D chol' eigh' nm pm aHat targetRadius targetEvs history = plotReconstruction D chol eigh nm pm aHat targetRadius targetEvs history := by
  obtain ⟨g, _⟩ := C90_spectrum h hF hs
  obtain ⟨g', _⟩ := C90_spectrum h hF hs'
  obtain ⟨m, _, p⟩ := drum_matrices h hF
  have hM := spd_shift m.psd (e := 1e-12) (by norm_num)
  have ew : (getEvs D chol' eigh' Λmap aHat).1 = (getEvs D chol eigh Λmap aHat).1 := geigh_unique g' g p.1 hM
  have ev := simple_vector g g' p.1 hM ⟨0, h0⟩ hsimple
  have ec : signedMode D ((getEvs D chol' eigh' Λmap aHat).2.col ⟨0, h0⟩) = signedMode D ((getEvs D chol eigh Λmap aHat).2.col ⟨0, h0⟩) := by
    funext x
    rcases ev with e | e
    · exact congrArg (fun v => signedMode D v x) e
    · exact (congrArg (fun v => signedMode D v x) e).trans ((C120_sign D _).2.2.1 haxis x)
  obtain ⟨Λp, hp⟩ := (plot_form_iff nm pm 1 1 (.inr rfl) (.inr rfl)).mpr ((plot_form_iff nm pm 0 0 (.inl rfl) (.inl rfl)).mp ⟨Λmap, hm⟩)
  unfold plotReconstruction
  simp only [hm, hp, dif_pos h0, ew]
  have ed : drumContour D (drumshapeMap (drumRadius Λp aHat)) ((getEvs D chol' eigh' Λmap aHat).2.col ⟨0, h0⟩) =
      drumContour D (drumshapeMap (drumRadius Λp aHat)) ((getEvs D chol eigh Λmap aHat).2.col ⟨0, h0⟩) := by
    funext i j
    unfold drumContour
    rw [ec]
  rw [ed]

/-- Non-vacuity: for a drum that is free at its boundary and as many radial as poloidal splines, the first eigenvalue is simple and the eigenfunction does not vanish on the axis. -/
theorem free_drum {ns ps : Nat × Nat × Nat} {q : Nat} {types : String × String × String} {F0 F : V3 → V3} {D : DeRham} (h : Admissible ns ps q types F0 true false D)
    (hn : ns.1 = ns.2.1) (hz : Form.dsize ns.2.2 types.2.2 ≤ ns.2.1) (hF : ∀ x ∈ D.S.Q.x, 1e-5 ≤ jacobianDeterminant F (toV3 x))
    {chol eigh} (hs : SolverOK (n := D.m0) chol eigh) (h0 : 0 < D.m0) :
    (∀ k, k ≠ ⟨0, h0⟩ → (generalizedEigh chol eigh (drumK D F) (drumM D F)).1 k ≠ (generalizedEigh chol eigh (drumK D F) (drumM D F)).1 ⟨0, h0⟩) ∧
      drumMode D ((generalizedEigh chol eigh (drumK D F) (drumM D F)).2.col ⟨0, h0⟩) ![0, 0, 0] ≠ 0 := by
  obtain ⟨g, nn⟩ := C90_spectrum h hF hs
  obtain ⟨m, e, p⟩ := drum_matrices h hF
  obtain ⟨a, b, c, _⟩ := h.polar rfl
  have hw := withMap_admissible h hF
  have hk := C73_scalar_harmonics hw a (by rw [b]; decide) c
  rw [← ker_drumK h hF, if_neg (by omega)] at hk
  have hb : betti true false 0 = 1 := rfl
  rw [hb] at hk
  have hz0 := fun k => g.zero_iff p k
  rw [hk] at hz0
  have w0 := (hz0 ⟨0, h0⟩).mpr (by norm_num)
  constructor
  · intro k hkn e0
    rw [w0] at e0
    have := (hz0 k).mp e0
    exact hkn (Fin.ext (by simp at this ⊢; omega))
  · have key : ∃ y : Fin D.m0 → ℝ, drumMode D y ![0, 0, 0] = 1 ∧ drumK D F *ᵥ y = 0 := by
      obtain ⟨y, hy, _, hy2⟩ := C76_gradient_of_constants hw a
      refine ⟨y, hy (0, 0, 0) ⟨le_rfl, zero_le_one⟩ ⟨le_rfl, zero_le_one⟩ ⟨le_rfl, zero_le_one⟩, ?_⟩
      have hdd := hy2.mpr ⟨.inl hn, hz⟩
      rw [e]
      have : (withMap D F).M0 *ᵥ ((withMap D F).dd0 *ᵥ y) = 0 := by rw [hdd, mulVec_zero]
      rwa [mulVec_mulVec] at this
    obtain ⟨y, hone, hyK⟩ := key
    obtain ⟨v, hv⟩ : ∃ v, v = (generalizedEigh chol eigh (drumK D F) (drumM D F)).2.col ⟨0, h0⟩ := ⟨_, rfl⟩
    have hvK : drumK D F *ᵥ v = 0 := by rw [hv, g.col, w0, zero_smul]
    have hvn : v ≠ 0 := by
      intro hv0
      have := g.col_dot ⟨0, h0⟩ ⟨0, h0⟩
      rw [if_pos rfl, ← hv, hv0, zero_dotProduct] at this
      exact zero_ne_one this
    have hyn : (⟨y, hyK⟩ : LinearMap.ker (drumK D F).mulVecLin) ≠ 0 := by
      intro h1
      have h2 : y = 0 := congrArg Subtype.val h1
      rw [h2] at hone
      have := drumMode_smul D 0 0 ![0, 0, 0]
      rw [zero_smul, zero_mul, hone] at this
      exact one_ne_zero this
    obtain ⟨s, hs1⟩ := (finrank_eq_one_iff_of_nonzero' _ hyn).mp hk ⟨v, hvK⟩
    have hs2 : s • y = v := congrArg Subtype.val hs1
    rw [← hv, ← hs2, drumMode_smul, hone, mul_one]
    intro h1
    rw [h1, zero_smul] at hs2
    exact hvn hs2.symm

/-- A radius with equal coefficients is constant. -/
theorem equal_coefficients {Λmap : Form ℝ} (hm : Form.mk? 0 (8, 1, 1) (3, 0, 0) ("periodic", "constant", "constant") = .ok Λmap) (R : ℝ) {χ : ℝ} (h0 : 0 ≤ χ) (h1 : χ ≤ 1) :
    drumRadius Λmap (fun _ => R) χ = R := by
  rw [radius_spline hm, ← mul_sum]
  have hd : DirOK 8 3 6 "periodic" := by unfold DirOK; norm_num
  have := (DirOK.unity hd).sum (Form.mk?_inv hm).2.2.1 χ h0 h1
  rw [this, mul_one]

/-- Case: a round drum with the parameters of the script, free at its boundary: the picture exists, and all correct solvers draw the same. -/
example : ∃ (D : DeRham) (aHat : Nat → ℝ), ∀ chol chol' eigh eigh', SolverOK (n := D.m0) chol eigh → SolverOK (n := D.m0) chol' eigh' → ∀ targetRadius targetEvs history,
    (targetEvs.length ≤ D.m0 ∧ history ≠ some []) →
    (∃ R, plotReconstruction D chol eigh 8 3 aHat targetRadius targetEvs history = .ok R) ∧
    plotReconstruction D chol' eigh' 8 3 aHat targetRadius targetEvs history = plotReconstruction D chol eigh 8 3 aHat targetRadius targetEvs history := by
  obtain ⟨R, D, hR, h, hc⟩ := exists_round_drum (ns := (8, 8, 1)) (ps := (3, 3, 0)) (q := 6) (by norm_num) (by unfold DirOK; norm_num) (by unfold DirOK; norm_num)
    (by unfold DirOK; norm_num) (by norm_num) false
  obtain ⟨S, hS⟩ := Seq.build (ns := (8, 1, 1)) (ps := (3, 0, 0)) (q := 6) (types := ("periodic", "constant", "constant")) (by unfold DirOK; norm_num)
    (by unfold DirOK; norm_num) (by unfold DirOK; norm_num)
  have hm := (Seq.mk?_inv hS).1
  have h0 : 0 < D.m0 := by
    obtain ⟨y, hy, _⟩ := C76_gradient_of_constants h rfl
    by_contra hn
    have hy0 : y = 0 := funext fun i => absurd i.2 (by omega)
    have h1 := hy (0, 0, 0) ⟨le_rfl, zero_le_one⟩ ⟨le_rfl, zero_le_one⟩ ⟨le_rfl, zero_le_one⟩
    rw [hy0] at h1
    simp [discreteFunction] at h1
  have hF : ∀ x ∈ D.S.Q.x, 1e-5 ≤ jacobianDeterminant (drumshapeMap (drumRadius S.L0 fun _ => R)) (toV3 x) := by
    intro x hx
    obtain ⟨a0, a1, b0, b1⟩ := points_inside h rfl rfl hx
    have hd : HasDerivAt (drumRadius S.L0 fun _ => R) 0 x.2.1 := by
      refine (hasDerivAt_const x.2.1 R).congr_of_eventuallyEq ?_
      filter_upwards [Ioo_mem_nhds b0 b1] with t ht
      exact equal_coefficients hm R ht.1.le ht.2.le
    rw [C63_drumshape_jacobian (x := toV3 x) hd]
    have h1 := hc 1 le_rfl x hx
    rw [C63_drumshape_jacobian (hasDerivAt_const _ R)] at h1
    have e := equal_coefficients hm R b0.le b1.le
    change 1e-5 ≤ 2 * π * drumRadius S.L0 (fun _ => R) x.2.1 ^ 2 * x.1
    rw [e]
    simpa [toV3] using h1
  refine ⟨D, fun _ => R, fun chol chol' eigh eigh' hs hs' targetRadius targetEvs history hh => ⟨?_, ?_⟩⟩
  · exact (C120_reconstruction_iff D chol eigh 8 3 _ targetRadius targetEvs history h0).mpr ⟨⟨_, hm⟩, hh⟩
  · obtain ⟨f1, f2⟩ := free_drum h rfl (by simp [Form.dsize]) hF hs h0
    exact C120_picture_unique h hm _ hF hs hs' h0 f1 f2 targetRadius targetEvs history

end Mrx.Props
