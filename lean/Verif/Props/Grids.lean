import Verif.Model.Plotting
import Mathlib.Tactic.Ring
import Mathlib.Tactic.Linarith
import Mathlib.Tactic.FieldSimp
import Mathlib.Tactic.Positivity

/-! # C65, C72: plot grids and limits -/

set_option linter.unusedSectionVars false
set_option linter.unusedVariables false

namespace Mrx.Props
open Mrx Matrix

/-- Indexing into a concatenation of blocks of equal length. -/
theorem getElem?_blocks {α β : Type} (l : List α) (f : α → List β) (n : Nat) (hf : ∀ a ∈ l, (f a).length = n) (j i : Nat) (hi : i < n) :
    (l.flatMap f)[j * n + i]? = (l[j]?).bind fun a => (f a)[i]? := by
  induction l generalizing j with
  | nil => simp
  | cons a l ih =>
    have ha := hf a (by simp)
    rw [List.flatMap_cons]
    cases j with
    | zero => simp only [Nat.zero_mul, Nat.zero_add, List.getElem?_cons_zero, Option.bind_some]
              rw [List.getElem?_append_left (by omega)]
    | succ j =>
      rw [List.getElem?_append_right (by rw [ha, Nat.succ_mul]; omega), List.getElem?_cons_succ]
      rw [← ih (fun a h => hf a (List.mem_cons_of_mem _ h)) j]
      congr 1
      rw [ha, Nat.succ_mul]; omega

theorem flatMap_length_const {α β : Type} (l : List α) (f : α → List β) (n : Nat) (hf : ∀ a ∈ l, (f a).length = n) :
    (l.flatMap f).length = l.length * n := by
  induction l with
  | nil => simp
  | cons a l ih =>
    rw [List.flatMap_cons, List.length_append, hf a (by simp), ih (fun a h => hf a (List.mem_cons_of_mem _ h)), List.length_cons]
    ring

/-- The point at flat position `(j n₁ + i) n₃ + k`. -/
theorem meshPoints_getElem (x1 x2 x3 : List ℝ) (i j k : Nat) (hi : i < x1.length) (hj : j < x2.length) (hk : k < x3.length) :
    (meshPoints x1 x2 x3)[(j * x1.length + i) * x3.length + k]? = some ![x1[i], x2[j], x3[k]] := by
  unfold meshPoints
  have hblock : ∀ b : ℝ, (x1.flatMap fun a => x3.map fun c => (![a, b, c] : V3)).length = x1.length * x3.length := by
    intro b; exact flatMap_length_const _ _ _ (by simp)
  have hlt : i * x3.length + k < x1.length * x3.length := by
    calc i * x3.length + k < i * x3.length + x3.length := by omega
      _ = (i + 1) * x3.length := by ring
      _ ≤ x1.length * x3.length := Nat.mul_le_mul_right _ hi
  rw [show (j * x1.length + i) * x3.length + k = j * (x1.length * x3.length) + (i * x3.length + k) by ring]
  rw [getElem?_blocks _ _ _ (fun b _ => hblock b) _ _ hlt]
  rw [List.getElem?_eq_getElem hj, Option.bind_some]
  rw [getElem?_blocks _ _ x3.length (by simp) _ _ hk, List.getElem?_eq_getElem hi, Option.bind_some]
  simp [List.getElem?_eq_getElem hk]

theorem meshPoints_length (x1 x2 x3 : List ℝ) : (meshPoints x1 x2 x3).length = x2.length * (x1.length * x3.length) := by
  unfold meshPoints
  exact flatMap_length_const _ _ _ (fun b _ => flatMap_length_const _ _ _ (by simp))

theorem linspace_length (a b : ℝ) (n : Nat) : (linspace a b n).length = n := by simp [linspace]

theorem Grid2Args.x1_length (a : Grid2Args) : a.x1.length = a.nx := by unfold Grid2Args.x1; split <;> simp [linspace_length]
theorem Grid2Args.x2_length (a : Grid2Args) : a.x2.length = a.ny := by unfold Grid2Args.x2; split <;> simp [linspace_length]
theorem Grid2Args.x3_length (a : Grid2Args) : a.x3.length = a.nz := by unfold Grid2Args.x3; split <;> simp [linspace_length]

/-! ## C65 -/

/-- **C65** in all grid functions the list of images is the image of the list of logical points, in the same order. -/
theorem C65_points_and_images (F : V3 → V3) :
    (∀ x0 x1 y0 y1 z0 z1 nx ny nz, (get3dGrids F x0 x1 y0 y1 z0 z1 nx ny nz).y = (get3dGrids F x0 x1 y0 y1 z0 z1 nx ny nz).x.map F)
      ∧ (∀ v ax a, (get2dGrids F v ax a).y = (get2dGrids F v ax a).x.map F)
      ∧ (∀ z c n t, (get1dGrids F z c n t).y = (get1dGrids F z c n t).x.map F) := ⟨fun _ _ _ _ _ _ _ _ _ => rfl, fun _ _ _ => rfl, fun _ _ _ _ => rfl⟩

/-- **C65** every point of the product grid occurs among the logical points, and no other point does. -/
theorem C65_all_points (x1 x2 x3 : List ℝ) (p : V3) : p ∈ meshPoints x1 x2 x3 ↔ p 0 ∈ x1 ∧ p 1 ∈ x2 ∧ p 2 ∈ x3 := by
  unfold meshPoints
  simp only [List.mem_flatMap, List.mem_map]
  constructor
  · rintro ⟨b, hb, a, ha, c, hc, rfl⟩; exact ⟨ha, hb, hc⟩
  · rintro ⟨h0, h1, h2⟩
    refine ⟨p 1, h1, p 0, h0, p 2, h2, ?_⟩
    ext i; fin_cases i <;> rfl

/-- **C65** the number of points. -/
theorem C65_sizes (F : V3 → V3) (x0 x1 y0 y1 z0 z1 v : ℝ) (nx ny nz : Nat) (ax : Int) (a : Grid2Args) :
    (get3dGrids F x0 x1 y0 y1 z0 z1 nx ny nz).x.length = nx * ny * nz
      ∧ (get2dGrids F v ax a).x.length = if ax = 0 then a.ny * a.nz else if ax = 1 then a.nx * a.nz else a.nx * a.ny := by
  constructor
  · simp only [get3dGrids, meshPoints_length, linspace_length]; ring
  · simp only [get2dGrids, meshPoints_length]
    by_cases h0 : ax = 0
    · subst h0
      simp [Grid2Args.x2_length, Grid2Args.x3_length]
    · by_cases h1 : ax = 1
      · subst h1
        simp [Grid2Args.x1_length, Grid2Args.x3_length]
      · simp [h0, h1, Grid2Args.x1_length, Grid2Args.x2_length]; ring

/-- **C65** one-dimensional grids: entry `i` is the image of grid point `i`. -/
theorem C65_1d_aligned (F : V3 → V3) (zeta chi tol : ℝ) (nx i : Nat) (hi : i < nx) :
    (get1dGrids F zeta chi nx tol).Y i 0 0 = some (F ![(linspace tol (1 - tol) nx)[i]'(by rwa [linspace_length]), chi, zeta]) := by
  have h := meshPoints_getElem (linspace tol (1 - tol) nx) [chi] [zeta] i 0 0 (by rwa [linspace_length]) (by simp) (by simp)
  simp only [get1dGrids, and_self, if_true, List.getElem?_map]
  simp only [List.length_singleton, Nat.zero_mul, Nat.zero_add, Nat.mul_one, Nat.add_zero, List.getElem_singleton] at h
  rw [h]; rfl

example := C65_1d_aligned id 0 0.5 1e-6 3 2 (by decide)

/-- **C65** cuts at a fixed first or second coordinate: entry `(i, j)` is the image of grid point `(i, j)`, for all sizes. -/
theorem C65_2d_aligned (F : V3 → V3) (v : ℝ) (a : Grid2Args) :
    (∀ j k (hj : j < a.x2.length) (hk : k < a.x3.length), (get2dGrids F v 0 a).Y j k 0 = some (F ![v, a.x2[j], a.x3[k]]))
      ∧ (∀ i k (hi : i < a.x1.length) (hk : k < a.x3.length), (get2dGrids F v 1 a).Y i k 0 = some (F ![a.x1[i], v, a.x3[k]])) := by
  constructor
  · intro j k hj hk
    have h := meshPoints_getElem [v] a.x2 a.x3 0 j k (by simp) hj hk
    simp only [List.length_singleton, Nat.mul_one, Nat.add_zero, List.getElem_singleton, Grid2Args.x3_length] at h
    simp only [get2dGrids, reshape2, if_true, List.getElem?_map, ne_eq, not_true_eq_false, false_and, if_false]
    rw [h]; rfl
  · intro i k hi hk
    have h := meshPoints_getElem a.x1 [v] a.x3 i 0 k hi (by simp) hk
    simp only [Nat.zero_mul, Nat.zero_add, List.getElem_singleton, Grid2Args.x3_length] at h
    simp only [get2dGrids, reshape2, if_true, List.getElem?_map, ne_eq, one_ne_zero, not_false_eq_true, and_self, if_false, not_true_eq_false, and_false]
    rw [h]; rfl

/-- **C65** the cut at a fixed third coordinate, general sizes: entry `(i, j)` is the image of the grid point whose indices are the remainder
and the quotient of `i · ny + j` by `nx`. -/
theorem C65_cut2_entries (F : V3 → V3) (v : ℝ) (ax : Int) (h0 : ax ≠ 0) (h1 : ax ≠ 1) (a : Grid2Args) (i j : Nat) (hi : i < a.nx) (hj : j < a.ny) :
    ∃ (h1 : (i * a.ny + j) % a.nx < a.x1.length) (h2 : (i * a.ny + j) / a.nx < a.x2.length),
      (get2dGrids F v ax a).Y i j 0 = some (F ![a.x1[(i * a.ny + j) % a.nx], a.x2[(i * a.ny + j) / a.nx], v]) := by
  have hx : 0 < a.nx := by omega
  have hlt : i * a.ny + j < a.nx * a.ny := by
    calc i * a.ny + j < i * a.ny + a.ny := by omega
      _ = (i + 1) * a.ny := by ring
      _ ≤ a.nx * a.ny := Nat.mul_le_mul_right _ hi
  have q1 : (i * a.ny + j) % a.nx < a.x1.length := by rw [Grid2Args.x1_length]; exact Nat.mod_lt _ hx
  have q2 : (i * a.ny + j) / a.nx < a.x2.length := by rw [Grid2Args.x2_length]; exact Nat.div_lt_of_lt_mul hlt
  refine ⟨q1, q2, ?_⟩
  have h := meshPoints_getElem a.x1 a.x2 [v] _ _ 0 q1 q2 (by simp)
  simp only [List.length_singleton, Nat.mul_one, Nat.add_zero, List.getElem_singleton, Grid2Args.x1_length] at h
  rw [Nat.mul_comm ((i * a.ny + j) / a.nx), Nat.div_add_mod] at h
  simp only [get2dGrids, reshape2, if_true, List.getElem?_map, h0, h1, ne_eq, not_false_eq_true, true_and, if_false, and_self]
  rw [h]; rfl

example := C65_cut2_entries id 0.5 2 (by decide) (by decide) { nx := 2, ny := 3 } 1 2 (by decide) (by decide)

/-- **C65** with equal sizes the cut at a fixed third coordinate is aligned up to transposition: entry `(i, j)` is the image of grid point
`(j, i)` (the convention of `meshgrid`). -/
theorem C65_cut2_square (F : V3 → V3) (v : ℝ) (ax : Int) (h0 : ax ≠ 0) (h1 : ax ≠ 1) (a : Grid2Args) (hn : a.nx = a.ny) (i j : Nat)
    (hi : i < a.x2.length) (hj : j < a.x1.length) : (get2dGrids F v ax a).Y i j 0 = some (F ![a.x1[j], a.x2[i], v]) := by
  have hi' : i < a.ny := by rwa [Grid2Args.x2_length] at hi
  have hj' : j < a.nx := by rwa [Grid2Args.x1_length] at hj
  obtain ⟨q1, q2, h⟩ := C65_cut2_entries F v ax h0 h1 a i j (by omega) (by omega)
  have e1 : (i * a.ny + j) % a.nx = j := by rw [hn, Nat.mul_add_mod', Nat.mod_eq_of_lt (by omega)]
  have e2 : (i * a.ny + j) / a.nx = i := by
    rw [hn, Nat.mul_comm, Nat.mul_add_div (by omega), Nat.div_eq_of_lt (by omega), Nat.add_zero]
  rw [h]
  simp only [e1, e2]

/-- Case: a 3 × 3 cut. -/
example := C65_cut2_square id 0.5 2 (by decide) (by decide) { nx := 3, ny := 3 } rfl 1 2 (by rw [Grid2Args.x2_length]; decide) (by rw [Grid2Args.x1_length]; decide)

/-- The grid values at different indices are different. -/
theorem linspace_injective {a b : ℝ} (hab : a ≠ b) {n i j : Nat} (hi : i < n) (hj : j < n)
    (h : (linspace a b n)[i]'(by rwa [linspace_length]) = (linspace a b n)[j]'(by rwa [linspace_length])) : i = j := by
  simp only [linspace, List.getElem_map, List.getElem_range] at h
  by_cases h1 : n = 1
  · omega
  · rw [if_neg h1, if_neg h1] at h
    have hn : (n - 1 : ℝ) ≠ 0 := by
      have : (n : ℝ) ≠ 1 := by exact_mod_cast h1
      exact sub_ne_zero.2 this
    have hd : (b - a) / (n - 1 : ℝ) ≠ 0 := div_ne_zero (sub_ne_zero.2 hab.symm) hn
    have : (i : ℝ) = j := mul_right_cancel₀ hd (by linarith)
    exact_mod_cast this

/-- **C65 (finding)** for a cut at a fixed third coordinate entry `(0, 1)` is the image of grid point `(1, 0)`, so for an injective map it
is not the image of grid point `(0, 1)`; and with `nx ≠ ny` the arrays are not the transposed grid either: entry `(1, 0)` is not the image
of grid point `(0, 1)`. -/
theorem C65_cut2_misaligned (F : V3 → V3) (hF : Function.Injective F) (v : ℝ) (ax : Int) (h0 : ax ≠ 0) (h1 : ax ≠ 1) (a : Grid2Args)
    (hx : 2 ≤ a.nx) (hy : 2 ≤ a.ny) (hX : a.xMin + a.tol1 ≠ a.xMax - a.tol1) (hY : a.yMin + a.tol2 ≠ a.yMax - a.tol2) :
    (get2dGrids F v ax a).Y 0 1 0 ≠ some (F ![a.x1[0]'(by rw [Grid2Args.x1_length]; omega), a.x2[1]'(by rw [Grid2Args.x2_length]; omega), v])
      ∧ (a.nx ≠ a.ny →
          (get2dGrids F v ax a).Y 1 0 0 ≠ some (F ![a.x1[0]'(by rw [Grid2Args.x1_length]; omega), a.x2[1]'(by rw [Grid2Args.x2_length]; omega), v])) := by
  have inj1 : ∀ i j (hi : i < a.x1.length) (hj : j < a.x1.length), a.x1[i] = a.x1[j] → i = j := by
    intro i j hi hj h
    have hi' := hi
    have hj' := hj
    rw [Grid2Args.x1_length] at hi' hj'
    cases hr : a.invertX with
    | true =>
      have e : a.x1 = (linspace (a.xMin + a.tol1) (a.xMax - a.tol1) a.nx).reverse := by simp [Grid2Args.x1, hr]
      simp only [e, List.getElem_reverse, linspace_length] at h
      have := linspace_injective hX (by omega) (by omega) h
      omega
    | false =>
      have e : a.x1 = linspace (a.xMin + a.tol1) (a.xMax - a.tol1) a.nx := by simp [Grid2Args.x1, hr]
      simp only [e] at h
      exact linspace_injective hX hi' hj' h
  have inj2 : ∀ i j (hi : i < a.x2.length) (hj : j < a.x2.length), a.x2[i] = a.x2[j] → i = j := by
    intro i j hi hj h
    have hi' := hi
    have hj' := hj
    rw [Grid2Args.x2_length] at hi' hj'
    cases hr : a.invertY with
    | true =>
      have e : a.x2 = (linspace (a.yMin + a.tol2) (a.yMax - a.tol2) a.ny).reverse := by simp [Grid2Args.x2, hr]
      simp only [e, List.getElem_reverse, linspace_length] at h
      have := linspace_injective hY (by omega) (by omega) h
      omega
    | false =>
      have e : a.x2 = linspace (a.yMin + a.tol2) (a.yMax - a.tol2) a.ny := by simp [Grid2Args.x2, hr]
      simp only [e] at h
      exact linspace_injective hY hi' hj' h
  constructor
  · obtain ⟨q1, q2, h⟩ := C65_cut2_entries F v ax h0 h1 a 0 1 (by omega) (by omega)
    rw [h]
    intro he
    have := hF (Option.some.inj he)
    have e0 := congrFun this 0
    simp only [cons_val_zero] at e0
    have := inj1 _ _ _ _ e0
    rw [Nat.zero_mul, Nat.zero_add, Nat.mod_eq_of_lt (by omega)] at this
    omega
  · intro hne
    obtain ⟨q1, q2, h⟩ := C65_cut2_entries F v ax h0 h1 a 1 0 (by omega) (by omega)
    rw [h]
    intro he
    have := hF (Option.some.inj he)
    have e0 := congrFun this 0
    have e1 := congrFun this 1
    simp only [cons_val_zero, cons_val_one] at e0 e1
    have m := inj1 _ _ _ _ e0
    have d := inj2 _ _ _ _ e1
    have := Nat.div_add_mod (1 * a.ny + 0) a.nx
    rw [m, d] at this
    omega

/-- **C65** three-dimensional grids with `nx = ny`: entry `(i, j, k)` is the image of grid point `(j, i, k)`. -/
theorem C65_3d_square (F : V3 → V3) (x0 x1 y0 y1 z0 z1 : ℝ) (n nz i j k : Nat) (hi : i < n) (hj : j < n) (hk : k < nz) :
    (get3dGrids F x0 x1 y0 y1 z0 z1 n n nz).Y i j k = some (F ![(linspace x0 x1 n)[j]'(by rwa [linspace_length]),
      (linspace y0 y1 n)[i]'(by rwa [linspace_length]), (linspace z0 z1 nz)[k]'(by rwa [linspace_length])]) := by
  have h := meshPoints_getElem (linspace x0 x1 n) (linspace y0 y1 n) (linspace z0 z1 nz) j i k (by rwa [linspace_length])
    (by rwa [linspace_length]) (by rwa [linspace_length])
  simp only [linspace_length] at h
  simp only [get3dGrids, reshape3, List.getElem?_map, h]
  rfl

example := C65_3d_square id 0 1 0 1 0 1 3 2 2 1 1 (by decide) (by decide) (by decide)

/-- **C65 (finding)** in three dimensions entry `(0, 1, 0)` is the image of grid point `(1, 0, 0)`, and for `nx ≠ ny` entry `(1, 0, 0)` is not
the image of grid point `(0, 1, 0)`. -/
theorem C65_3d_misaligned (F : V3 → V3) (hF : Function.Injective F) {x0 x1 y0 y1 : ℝ} (z0 z1 : ℝ) (hX : x0 ≠ x1) (hY : y0 ≠ y1) (nx ny nz : Nat)
    (hx : 2 ≤ nx) (hy : 2 ≤ ny) (hz : 1 ≤ nz) :
    let p : V3 := ![(linspace x0 x1 nx)[0]'(by rw [linspace_length]; omega), (linspace y0 y1 ny)[1]'(by rw [linspace_length]; omega),
      (linspace z0 z1 nz)[0]'(by rw [linspace_length]; omega)]
    (get3dGrids F x0 x1 y0 y1 z0 z1 nx ny nz).Y 0 1 0 ≠ some (F p)
      ∧ (nx ≠ ny → (get3dGrids F x0 x1 y0 y1 z0 z1 nx ny nz).Y 1 0 0 ≠ some (F p)) := by
  have entry : ∀ i j, i < nx → j < ny → ∃ (h1 : (i * ny + j) % nx < nx) (h2 : (i * ny + j) / nx < ny),
      (get3dGrids F x0 x1 y0 y1 z0 z1 nx ny nz).Y i j 0 = some (F ![(linspace x0 x1 nx)[(i * ny + j) % nx]'(by rwa [linspace_length]),
        (linspace y0 y1 ny)[(i * ny + j) / nx]'(by rwa [linspace_length]), (linspace z0 z1 nz)[0]'(by rw [linspace_length]; omega)]) := by
    intro i j hi hj
    have hlt : i * ny + j < nx * ny := by
      calc i * ny + j < i * ny + ny := by omega
        _ = (i + 1) * ny := by ring
        _ ≤ nx * ny := Nat.mul_le_mul_right _ hi
    refine ⟨Nat.mod_lt _ (by omega), Nat.div_lt_of_lt_mul hlt, ?_⟩
    have h := meshPoints_getElem (linspace x0 x1 nx) (linspace y0 y1 ny) (linspace z0 z1 nz) ((i * ny + j) % nx) ((i * ny + j) / nx) 0
      (by rw [linspace_length]; exact Nat.mod_lt _ (by omega)) (by rw [linspace_length]; exact Nat.div_lt_of_lt_mul hlt)
      (by rw [linspace_length]; omega)
    simp only [linspace_length] at h
    rw [Nat.mul_comm ((i * ny + j) / nx), Nat.div_add_mod] at h
    simp only [get3dGrids, reshape3, List.getElem?_map, h]
    rfl
  intro p
  constructor
  · obtain ⟨q1, q2, h⟩ := entry 0 1 (by omega) (by omega)
    rw [h]
    intro he
    have e0 := congrFun (hF (Option.some.inj he)) 0
    simp only [p, cons_val_zero] at e0
    have := linspace_injective hX q1 (by omega) e0
    rw [Nat.zero_mul, Nat.zero_add, Nat.mod_eq_of_lt (by omega)] at this
    omega
  · intro hne
    obtain ⟨q1, q2, h⟩ := entry 1 0 (by omega) (by omega)
    rw [h]
    intro he
    have e0 := congrFun (hF (Option.some.inj he)) 0
    have e1 := congrFun (hF (Option.some.inj he)) 1
    simp only [p, cons_val_zero, cons_val_one] at e0 e1
    have m := linspace_injective hX q1 (by omega) e0
    have d := linspace_injective hY q2 (by omega) e1
    have := Nat.div_add_mod (1 * ny + 0) nx
    rw [m, d] at this
    omega

/-- Case: the identity on a 2 × 3 × 1 grid. -/
example := C65_3d_misaligned id Function.injective_id (x0 := 0) (x1 := 1) (y0 := 0) (y1 := 1) 0 1 (by norm_num) (by norm_num) 2 3 1 (by norm_num) (by norm_num) (by norm_num)

/-- **C65** the grid coordinates: equally spaced from the first to the last end point. -/
theorem C65_linspace (a b : ℝ) (n : Nat) (hn : 2 ≤ n) :
    (linspace a b n)[0]'(by rw [linspace_length]; omega) = a ∧ (linspace a b n)[n - 1]'(by rw [linspace_length]; omega) = b
      ∧ ∀ i (hi : i + 1 < n), (linspace a b n)[i + 1]'(by rwa [linspace_length]) - (linspace a b n)[i]'(by rw [linspace_length]; omega) = (b - a) / (n - 1) := by
  have h1 : n ≠ 1 := by omega
  have hn0 : (n - 1 : ℝ) ≠ 0 := by
    have : (n : ℝ) ≠ 1 := by exact_mod_cast h1
    exact sub_ne_zero.2 this
  simp only [linspace, List.getElem_map, List.getElem_range, if_neg h1]
  refine ⟨by simp, ?_, ?_⟩
  · rw [Nat.cast_sub (by omega)]; field_simp; push_cast; ring
  · intro i hi; push_cast; ring

example := C65_linspace 0 1 5 (by decide)

/-- `l` samples `[lo, hi]` at `n` equidistant points, from `lo` up, or from `hi` down if `inv`. -/
def Samples (l : List ℝ) (n : Nat) (lo hi : ℝ) (inv : Bool) : Prop :=
  l.length = n ∧ ∀ i (hi' : i < l.length), l[i] = if inv then hi - (hi - lo) * (i / (n - 1 : ℝ)) else lo + (hi - lo) * (i / (n - 1 : ℝ))

theorem linspace_samples (lo hi : ℝ) (n : Nat) (hn : 2 ≤ n) (inv : Bool) :
    Samples (if inv then (linspace lo hi n).reverse else linspace lo hi n) n lo hi inv := by
  have h1 : n ≠ 1 := by omega
  have hn0 : (n - 1 : ℝ) ≠ 0 := by
    have : (n : ℝ) ≠ 1 := by exact_mod_cast h1
    exact sub_ne_zero.2 this
  cases inv
  · refine ⟨by simp [linspace_length], fun i hi' => ?_⟩
    simp only [Bool.false_eq_true, if_false, linspace, List.getElem_map, List.getElem_range, if_neg h1]
    ring
  · refine ⟨by simp [linspace_length], fun i hi' => ?_⟩
    have hi2 : i < n := by simpa [linspace_length] using hi'
    simp only [if_true, linspace, List.getElem_reverse, List.getElem_map, List.getElem_range, if_neg h1, List.length_map, List.length_range]
    rw [Nat.cast_sub (by omega), Nat.cast_sub (by omega)]
    field_simp
    push_cast
    ring

/-- **C65** the coordinates of a two-dimensional grid: in the two directions of the cut, equidistant points between the given bounds, moved inwards by
the tolerance, in the requested direction; in the third the cut value. -/
theorem C65_2d_axes (F : V3 → V3) (v : ℝ) (a : Grid2Args) (hx : 2 ≤ a.nx) (hy : 2 ≤ a.ny) (hz : 2 ≤ a.nz) (ax : Int) :
    (if ax = 0 then (get2dGrids F v ax a).axes.1 = [v] else
      Samples (get2dGrids F v ax a).axes.1 a.nx (a.xMin + a.tol1) (a.xMax - a.tol1) a.invertX) ∧
    (if ax = 1 then (get2dGrids F v ax a).axes.2.1 = [v] else
      Samples (get2dGrids F v ax a).axes.2.1 a.ny (a.yMin + a.tol2) (a.yMax - a.tol2) a.invertY) ∧
    (if ax = 0 ∨ ax = 1 then Samples (get2dGrids F v ax a).axes.2.2 a.nz (a.zMin + a.tol3) (a.zMax - a.tol3) a.invertZ
      else (get2dGrids F v ax a).axes.2.2 = [v]) := by
  have s1 := linspace_samples (a.xMin + a.tol1) (a.xMax - a.tol1) a.nx hx a.invertX
  have s2 := linspace_samples (a.yMin + a.tol2) (a.yMax - a.tol2) a.ny hy a.invertY
  have s3 := linspace_samples (a.zMin + a.tol3) (a.zMax - a.tol3) a.nz hz a.invertZ
  by_cases h0 : ax = 0
  · subst h0
    simp only [get2dGrids, if_true, true_or]
    exact ⟨trivial, s2, s3⟩
  · by_cases h1 : ax = 1
    · subst h1
      exact ⟨s1, rfl, s3⟩
    · simp only [get2dGrids, if_neg h0, if_neg h1, or_self, if_false, ne_eq, h0, h1, not_false_eq_true, and_self, if_true, and_false]
      exact ⟨s1, s2, trivial⟩

example : (get2dGrids id 0.5 2 { nx := 2, ny := 3 }).Y 0 1 0
    ≠ some ![(({ nx := 2, ny := 3 } : Grid2Args).x1)[0]'(by rw [Grid2Args.x1_length]; decide), (({ nx := 2, ny := 3 } : Grid2Args).x2)[1]'(by rw [Grid2Args.x2_length]; decide), 0.5] :=
  (C65_cut2_misaligned id Function.injective_id 0.5 2 (by decide) (by decide) { nx := 2, ny := 3 } (by decide) (by decide) (by norm_num) (by norm_num)).1

/-! ## C72: `set_axes_equal` -/

/-- **C72** after `set_axes_equal` the three axes have the same length, keep their midpoints, contain their old ranges, and the longest axis
is unchanged. -/
theorem C72_axes_equal (X Y Z : ℝ × ℝ) :
    let r := setAxesEqual X Y Z
    (r.1.2 - r.1.1 = r.2.1.2 - r.2.1.1 ∧ r.2.1.2 - r.2.1.1 = r.2.2.2 - r.2.2.1)
      ∧ (r.1.1 + r.1.2 = X.1 + X.2 ∧ r.2.1.1 + r.2.1.2 = Y.1 + Y.2 ∧ r.2.2.1 + r.2.2.2 = Z.1 + Z.2)
      ∧ (r.1.1 ≤ X.1 ∧ X.2 ≤ r.1.2) ∧ (r.2.1.1 ≤ Y.1 ∧ Y.2 ≤ r.2.1.2) ∧ (r.2.2.1 ≤ Z.1 ∧ Z.2 ≤ r.2.2.2)
      ∧ (r.1 = X ∨ r.2.1 = Y ∨ r.2.2 = Z) := by
  obtain ⟨m, hm⟩ : ∃ m, m = max (max (X.2 - X.1) (Y.2 - Y.1)) (Z.2 - Z.1) := ⟨_, rfl⟩
  have hX : X.2 - X.1 ≤ m := by rw [hm]; exact le_trans (le_max_left _ _) (le_max_left _ _)
  have hY : Y.2 - Y.1 ≤ m := by rw [hm]; exact le_trans (le_max_right _ _) (le_max_left _ _)
  have hZ : Z.2 - Z.1 ≤ m := by rw [hm]; exact le_max_right _ _
  simp only [setAxesEqual, ← hm]
  refine ⟨⟨by ring, by ring⟩, ⟨by ring, by ring, by ring⟩, ⟨by linarith, by linarith⟩, ⟨by linarith, by linarith⟩, ⟨by linarith, by linarith⟩, ?_⟩
  rcases max_choice (max (X.2 - X.1) (Y.2 - Y.1)) (Z.2 - Z.1) with h | h
  · rcases max_choice (X.2 - X.1) (Y.2 - Y.1) with h' | h'
    · left; rw [h, h'] at hm; rw [hm]; apply Prod.ext <;> simp <;> ring
    · right; left; rw [h, h'] at hm; rw [hm]; apply Prod.ext <;> simp <;> ring
  · right; right; rw [h] at hm; rw [hm]; apply Prod.ext <;> simp <;> ring

end Mrx.Props
