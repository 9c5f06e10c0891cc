import Verif.Model.Plotting
import Mathlib.Tactic.Ring
import Mathlib.Tactic.Linarith
import Mathlib.Tactic.LinearCombination
import Mathlib.Tactic.FieldSimp
import Mathlib.Tactic.Positivity
import Mathlib.Tactic.ComputeDegree
import Mathlib.Data.List.Sort
import Mathlib.Tactic.IntervalCases

/-! # C66, C71: intersections of trajectories with planes -/

set_option linter.unusedSectionVars false
set_option linter.unusedVariables false

namespace Mrx.Props
open Mrx Matrix

/-- `x` lies on the segment from `p` to `q`. -/
def OnSegment {D : Nat} (p q x : Fin D → ℝ) : Prop := ∃ t : ℝ, 0 ≤ t ∧ t ≤ 1 ∧ x = p + t • (q - p)

/-! ## C66: `trajectory_plane_intersections_jit` -/

/-- The interpolation parameter of a sign change. -/
theorem crossing_parameter {a b : ℝ} (h : a * b ≤ 0) (hne : a - b ≠ 0) : 0 ≤ a / (a - b) ∧ a / (a - b) ≤ 1 := by
  have h2 : 0 < (a - b) ^ 2 := by positivity
  have e1 : a / (a - b) = a * (a - b) / (a - b) ^ 2 := by field_simp
  constructor
  · rw [e1]; apply div_nonneg _ h2.le; nlinarith [sq_nonneg a]
  · rw [e1, div_le_one h2]; nlinarith [sq_nonneg b]

/-- **C66** for a plane value other than zero, a reported point lies on the plane and on the segment, and its mask entry is set. -/
theorem C66_jit_sound {D : Nat} {pv : ℝ} (hpv : pv ≠ 0) (axis : Fin D) (p q x : Fin D → ℝ) (m : Bool)
    (h : segmentIntersection pv axis p q = (m, some x)) : m = true ∧ x axis = pv ∧ OnSegment p q x := by
  simp only [segmentIntersection, planeDiff, if_neg hpv, Prod.mk.injEq] at h
  obtain ⟨h1, h2⟩ := h
  split at h2
  · rename_i hm
    split at h2
    · simp at h2
    · rename_i hd
      simp only [Option.map_some, Option.some.injEq] at h2
      rw [decide_eq_true_eq] at hm
      obtain ⟨t0, t1⟩ := crossing_parameter hm hd
      refine ⟨by rw [← h1]; simpa using hm, ?_, _, t0, t1, h2.symm⟩
      rw [← h2]
      simp only [Pi.add_apply, Pi.smul_apply, Pi.sub_apply, smul_eq_mul]
      field_simp
      ring
  · simp at h2

/-- **C66** for a plane value other than zero, the mask is set exactly for the segments that meet the plane. -/
theorem C66_jit_mask {D : Nat} {pv : ℝ} (hpv : pv ≠ 0) (axis : Fin D) (p q : Fin D → ℝ) :
    (segmentIntersection pv axis p q).1 = true ↔ ∃ x, OnSegment p q x ∧ x axis = pv := by
  simp only [segmentIntersection, planeDiff, if_neg hpv, decide_eq_true_eq]
  constructor
  · intro h
    by_cases hd : p axis - pv - (q axis - pv) = 0
    · refine ⟨p, ⟨0, le_rfl, zero_le_one, by simp⟩, ?_⟩
      have e : q axis - pv = p axis - pv := by linarith
      rw [e] at h
      have : (p axis - pv) = 0 := by nlinarith [sq_nonneg (p axis - pv)]
      linarith
    · obtain ⟨t0, t1⟩ := crossing_parameter h hd
      refine ⟨_, ⟨_, t0, t1, rfl⟩, ?_⟩
      simp only [Pi.add_apply, Pi.smul_apply, Pi.sub_apply, smul_eq_mul]
      field_simp
      ring
  · rintro ⟨x, ⟨t, t0, t1, rfl⟩, hx⟩
    simp only [Pi.add_apply, Pi.smul_apply, Pi.sub_apply, smul_eq_mul] at hx
    have e1 : p axis - pv = -t * (q axis - p axis) := by linarith
    have e2 : q axis - pv = (1 - t) * (q axis - p axis) := by linarith
    rw [e1, e2]
    nlinarith [mul_nonneg t0 (sub_nonneg.2 t1), sq_nonneg (q axis - p axis), mul_nonneg (mul_nonneg t0 (sub_nonneg.2 t1)) (sq_nonneg (q axis - p axis))]

/-- **C66** every sign change is reported with a point. -/
theorem C66_jit_complete {D : Nat} {pv : ℝ} (hpv : pv ≠ 0) (axis : Fin D) (p q : Fin D → ℝ) (h : (p axis - pv) * (q axis - pv) < 0) :
    ∃ x, segmentIntersection pv axis p q = (true, some x) := by
  have hd : p axis - pv - (q axis - pv) ≠ 0 := by
    intro h0
    have e : q axis - pv = p axis - pv := by linarith
    rw [e] at h
    nlinarith [sq_nonneg (p axis - pv)]
  simp only [segmentIntersection, planeDiff, if_neg hpv, decide_eq_true h.le, if_true, if_neg hd, Option.map_some]
  exact ⟨_, rfl⟩

/-- **C66 (finding)** a segment lying in the plane has its mask entry set but the point is NaN. -/
theorem C66_jit_in_plane {D : Nat} {pv : ℝ} (hpv : pv ≠ 0) (axis : Fin D) (p q : Fin D → ℝ) (hp : p axis = pv) (hq : q axis = pv) :
    segmentIntersection pv axis p q = (true, none) := by
  simp [segmentIntersection, planeDiff, hpv, hp, hq]

/-- **C66 (finding)** for the plane value zero the mask is set only if an end point has coordinate exactly 0 or 1: crossings between
samples are never found. -/
theorem C66_jit_plane_zero {D : Nat} (axis : Fin D) (p q : Fin D → ℝ) :
    (segmentIntersection 0 axis p q).1 = true ↔ (p axis = 0 ∨ p axis = 1) ∨ (q axis = 0 ∨ q axis = 1) := by
  have key : ∀ x : ℝ, 0 ≤ planeDiff 0 x ∧ (planeDiff 0 x = 0 ↔ x = 0 ∨ x = 1) := by
    intro x
    simp only [planeDiff, if_true, sub_zero]
    refine ⟨le_min (abs_nonneg _) (abs_nonneg _), ?_⟩
    constructor
    · intro h
      rcases min_choice |x| |x - 1| with h' | h'
      · left; rw [h'] at h; exact abs_eq_zero.1 h
      · right; rw [h'] at h; linarith [abs_eq_zero.1 h]
    · rintro (rfl | rfl) <;> simp
  simp only [segmentIntersection, decide_eq_true_eq]
  rw [← (key (p axis)).2, ← (key (q axis)).2, ← mul_eq_zero]
  have := mul_nonneg (key (p axis)).1 (key (q axis)).1
  constructor
  · intro h; exact le_antisymm h this
  · intro h; exact h.le

/-- **C66 (finding)** in particular a sign change through zero is not reported. -/
theorem C66_jit_zero_crossing_missed : ∃ p q : V3, p 1 * q 1 < 0 ∧ segmentIntersection 0 1 p q = (false, none) := by
  refine ⟨![0, -1 / 2, 0], ![0, 1 / 2, 0], by norm_num, ?_⟩
  have h := C66_jit_plane_zero 1 ![0, -1 / 2, 0] (![0, 1 / 2, 0] : V3)
  have hf : (segmentIntersection 0 1 ![0, -1 / 2, 0] (![0, 1 / 2, 0] : V3)).1 = false := by
    rw [← Bool.not_eq_true, h]; norm_num
  have : (segmentIntersection 0 1 ![0, -1 / 2, 0] (![0, 1 / 2, 0] : V3)).2 = none := by
    simp only [segmentIntersection] at hf ⊢
    rw [hf]; simp
  exact Prod.ext hf this

/-- **C66** one entry per segment, in order. -/
theorem C66_jit_entries {D : Nat} (pv : ℝ) (axis : Fin D) (traj : List (Fin D → ℝ)) :
    (trajectoryIntersections pv axis traj).length = traj.length - 1
      ∧ ∀ i (hi : i + 1 < traj.length), (trajectoryIntersections pv axis traj)[i]? = some (segmentIntersection pv axis traj[i] traj[i + 1]) := by
  unfold trajectoryIntersections
  refine ⟨by simp, ?_⟩
  intro i hi
  simp [List.getElem?_zipWith, List.getElem?_tail, List.getElem?_eq_getElem hi, List.getElem?_eq_getElem (show i < traj.length by omega)]

example : ∃ x, segmentIntersection (1 / 2) 1 ![0, 0.25, 0] (![1, 1, 1] : V3) = (true, some x) ∧ x 1 = 1 / 2 := by
  obtain ⟨x, hx⟩ := C66_jit_complete (pv := 1 / 2) (by norm_num) 1 ![0, 0.25, 0] (![1, 1, 1] : V3) (by norm_num)
  exact ⟨x, hx, (C66_jit_sound (by norm_num) 1 _ _ _ _ hx).2.1⟩

/-! ## C71: Poincaré sections -/

/-- **C71 (finding)** `poincare_plot` wraps the trajectory into the unit cube first, so a line that runs through the end of the periodic
coordinate is reported as crossing the plane: between two samples on either side of 1 the coordinate never equals the plane value
modulo one, yet an intersection on the plane is reported. -/
theorem C71_spurious {pv : ℝ} (h0 : 0 < pv) (h1 : pv < 1) (axis : Fin 3) (p q : V3) (hp : pv < p axis) (hp1 : p axis < 1) (hq : 1 < q axis)
    (hq1 : q axis < 1 + pv) :
    (∃ x, (poincareIntersections pv axis [p, q]) = [(true, some x)] ∧ x axis = pv)
      ∧ ∀ x, OnSegment p q x → Int.fract (x axis) ≠ pv := by
  have fp : Int.fract (p axis) = p axis := Int.fract_eq_self.2 ⟨by linarith, hp1⟩
  have fq : Int.fract (q axis) = q axis - 1 := by
    rw [← Int.fract_sub_one]; exact Int.fract_eq_self.2 ⟨by linarith, by linarith⟩
  constructor
  · obtain ⟨x, hx⟩ := C66_jit_complete h0.ne' axis (fun c => Int.fract (p c)) (fun c => Int.fract (q c)) (by
      simp only [fp, fq]; exact mul_neg_of_pos_of_neg (by linarith) (by linarith))
    exact ⟨x, by simp [poincareIntersections, trajectoryIntersections, hx], (C66_jit_sound h0.ne' axis _ _ _ _ hx).2.1⟩
  · rintro x ⟨t, t0, t1, rfl⟩ he
    simp only [Pi.add_apply, Pi.smul_apply, Pi.sub_apply, smul_eq_mul] at he
    have l1 : pv < p axis + t * (q axis - p axis) := by nlinarith
    have l2 : p axis + t * (q axis - p axis) < 1 + pv := by nlinarith
    have hf := Int.self_sub_floor (p axis + t * (q axis - p axis))
    rw [he] at hf
    obtain ⟨n, hn⟩ : ∃ n : Int, n = ⌊p axis + t * (q axis - p axis)⌋ := ⟨_, rfl⟩
    rw [← hn] at hf
    have a1 : (0 : ℝ) < n := by linarith
    have a2 : (n : ℝ) < 1 := by linarith
    have b1 : 0 < n := by exact_mod_cast a1
    have b2 : n < 1 := by exact_mod_cast a2
    omega

/-- **C71** as long as no coordinate wraps between two samples the reported crossing is a true one: its preimage lies on the unwrapped
segment and has the plane value modulo one. -/
theorem C71_true_crossings {pv : ℝ} (h0 : pv ≠ 0) (axis : Fin 3) (p q x : V3) (m : Bool) (hw : ∀ c, ⌊p c⌋ = ⌊q c⌋)
    (h : poincareIntersections pv axis [p, q] = [(m, some x)]) :
    ∃ y, OnSegment p q y ∧ (∀ c, x c = y c - ⌊p c⌋) ∧ x axis = pv := by
  simp only [poincareIntersections, trajectoryIntersections, List.map_cons, List.map_nil, List.tail_cons, List.zipWith_cons_cons,
    List.zipWith_nil_right, List.cons.injEq, and_true] at h
  obtain ⟨-, hx, t, t0, t1, he⟩ := C66_jit_sound h0 axis _ _ _ _ h
  refine ⟨p + t • (q - p), ⟨t, t0, t1, rfl⟩, ?_, hx⟩
  intro c
  rw [he]
  simp only [Pi.add_apply, Pi.smul_apply, Pi.sub_apply, smul_eq_mul, Int.fract, hw c]
  ring

example : ∃ p q : V3, (∃ x, poincareIntersections (1 / 2) 2 [p, q] = [(true, some x)] ∧ x 2 = 1 / 2)
    ∧ ∀ x, OnSegment p q x → Int.fract (x 2) ≠ 1 / 2 := by
  refine ⟨![0.5, 0, 0.75], ![0.5, 0, 1.25], C71_spurious (by norm_num) (by norm_num) 2 _ _ ?_ ?_ ?_ ?_⟩ <;> norm_num [cons_val_two]

/-! ## C66: `trajectory_plane_intersections_list` -/

/-- **C66** every listed point lies on the plane and on a segment of the trajectory. -/
theorem C66_list_sound (traj : List V3) (pp n x : V3) (h : x ∈ planeIntersectionsList traj pp n) :
    n ⬝ᵥ x = n ⬝ᵥ pp ∧ ∃ i, ∃ (hi : i + 1 < traj.length), OnSegment traj[i] traj[i + 1] x := by
  unfold planeIntersectionsList at h
  obtain ⟨l, hl, hx⟩ := List.mem_flatten.1 h
  obtain ⟨i, hi, rfl⟩ := List.mem_iff_getElem.1 hl
  rw [List.length_zipWith, List.length_tail] at hi
  have hi' : i + 1 < traj.length := by omega
  simp only [List.getElem_zipWith, List.getElem_tail] at hx
  unfold segmentPlane at hx
  simp only at hx
  split at hx
  · simp at hx
  · rename_i hd
    split at hx
    · rename_i ht
      rw [List.mem_singleton] at hx
      refine ⟨?_, i, hi', _, ht.1, ht.2, hx⟩
      have hd0 : n ⬝ᵥ (traj[i + 1] - traj[i]) ≠ 0 := by
        intro h0; rw [h0] at hd; norm_num at hd
      rw [hx, dotProduct_add, dotProduct_smul, smul_eq_mul, div_mul_cancel₀ _ hd0, dotProduct_sub]
      ring
    · simp at hx

/-- **C66** every segment that meets the plane and is not nearly parallel to it contributes its intersection point. -/
theorem C66_list_complete (traj : List V3) (pp n x : V3) (i : Nat) (hi : i + 1 < traj.length) (hx : OnSegment traj[i] traj[i + 1] x)
    (hp : n ⬝ᵥ x = n ⬝ᵥ pp) (hd : 1e-12 ≤ |n ⬝ᵥ (traj[i + 1] - traj[i])|) : x ∈ planeIntersectionsList traj pp n := by
  obtain ⟨t, t0, t1, rfl⟩ := hx
  unfold planeIntersectionsList
  apply List.mem_flatten.2
  refine ⟨segmentPlane pp n traj[i] traj[i + 1], ?_, ?_⟩
  · apply List.mem_iff_getElem.2
    refine ⟨i, ?_, ?_⟩
    · rw [List.length_zipWith, List.length_tail]; omega
    · simp [List.getElem_zipWith, List.getElem_tail]
  · unfold segmentPlane
    simp only
    rw [if_neg (not_lt.2 hd)]
    have hd0 : n ⬝ᵥ (traj[i + 1] - traj[i]) ≠ 0 := by
      intro h0; rw [h0] at hd; norm_num at hd
    have et : n ⬝ᵥ (pp - traj[i]) / n ⬝ᵥ (traj[i + 1] - traj[i]) = t := by
      rw [dotProduct_sub, ← hp, dotProduct_add, dotProduct_smul, smul_eq_mul]
      field_simp
      ring
    rw [et, if_pos ⟨t0, t1⟩]
    simp

/-- **C66 (finding)** "parallel" is decided by an absolute threshold that depends on the length of the normal vector: for every trajectory and
plane there is a scaling of the normal (which describes the same plane) for which no intersection is reported. -/
theorem C66_list_scaling (traj : List V3) (pp n : V3) : ∃ c : ℝ, 0 < c ∧ planeIntersectionsList traj pp (c • n) = [] := by
  have hb : ∃ B : ℝ, 0 < B ∧ ∀ i (hi : i + 1 < traj.length), |n ⬝ᵥ (traj[i + 1] - traj[i])| ≤ B := by
    have : ∀ l : List V3, ∃ B : ℝ, 0 < B ∧ ∀ i (hi : i + 1 < l.length), |n ⬝ᵥ (l[i + 1] - l[i])| ≤ B := by
      intro l
      induction l with
      | nil => exact ⟨1, one_pos, by simp⟩
      | cons a l ih =>
        obtain ⟨B, hB, h⟩ := ih
        cases l with
        | nil => exact ⟨1, one_pos, by simp⟩
        | cons b l =>
          refine ⟨max B |n ⬝ᵥ (b - a)|, lt_of_lt_of_le hB (le_max_left _ _), ?_⟩
          intro i hi
          cases i with
          | zero => exact le_max_right _ _
          | succ i => exact le_trans (h i (by simpa using hi)) (le_max_left _ _)
    exact this traj
  obtain ⟨B, hB, h⟩ := hb
  refine ⟨1e-13 / B, by positivity, ?_⟩
  unfold planeIntersectionsList
  rw [List.flatten_eq_nil_iff]
  intro l hl
  obtain ⟨i, hi, rfl⟩ := List.mem_iff_getElem.1 hl
  rw [List.length_zipWith, List.length_tail] at hi
  simp only [List.getElem_zipWith, List.getElem_tail]
  unfold segmentPlane
  simp only
  rw [if_pos]
  rw [smul_dotProduct, smul_eq_mul, abs_mul, abs_of_pos (by positivity)]
  calc 1e-13 / B * |n ⬝ᵥ (traj[i + 1] - traj[i])| ≤ 1e-13 / B * B := by
        gcongr; exact h i (by omega)
    _ = 1e-13 := by field_simp
    _ < 1e-12 := by norm_num

example : (![0.5, 0, 0] : V3) ∈ planeIntersectionsList [![0, 0, 0], ![1, 0, 0]] ![0.5, 7, 7] ![1, 0, 0] := by
  refine C66_list_complete _ _ _ _ 0 (by simp) ⟨0.5, by norm_num, by norm_num, ?_⟩ (by simp [dotProduct, Fin.sum_univ_three]) (by simp [dotProduct, Fin.sum_univ_three]; norm_num)
  ext i; fin_cases i <;> simp

/-! ## C66: `intersect_with_plane` -/

theorem nodes_injOn (deg : Nat) : Set.InjOn (fun i : Nat => (i : ℝ)) (Finset.range (deg + 1) : Finset Nat) := by
  intro a _ b _ h
  have h' : (a : ℝ) = b := h
  exact_mod_cast h'

/-- Interpolation of an affine combination of the coordinates. -/
theorem polyfit_distance (deg : Nat) (m : V3) (offset : ℝ) (P : Nat → V3) :
    polyfit deg (fun k => P k ⬝ᵥ m - offset)
      = m 0 • polyfit deg (fun k => P k 0) + m 1 • polyfit deg (fun k => P k 1) + m 2 • polyfit deg (fun k => P k 2) - Polynomial.C offset := by
  have hc : Polynomial.C offset = polyfit deg (fun _ => offset) := by
    unfold polyfit
    apply Lagrange.eq_interpolate_of_eval_eq _ (nodes_injOn deg)
    · refine lt_of_le_of_lt Polynomial.degree_C_le ?_
      rw [Finset.card_range]; exact_mod_cast Nat.succ_pos deg
    · simp
  rw [hc]
  unfold polyfit
  rw [← map_smul, ← map_smul, ← map_smul, ← map_add, ← map_add, ← map_sub]
  congr 1
  funext k
  simp only [Pi.sub_apply, Pi.add_apply, Pi.smul_apply, smul_eq_mul, dotProduct, Fin.sum_univ_three]
  ring

/-- **C66** a reported point lies on the plane `n·x / ‖n‖ = offset`, for every interpolation degree. -/
theorem C66_interp_sound (normal : V3) (offset : ℝ) (traj : Nat → V3) (N deg i : Nat) (x : V3)
    (h : interpCrossing normal offset traj N deg i = some x) : planeDistance normal offset x = 0 := by
  unfold interpCrossing at h
  split at h
  · obtain ⟨t, ht, rfl⟩ := Option.map_eq_some_iff.1 h
    unfold crossingParameter at ht
    split at ht
    · cases ht
    · rename_i hc
      simp only at ht
      split at ht
      · rename_i hne
        injection ht with ht
        have hm := Finset.min'_mem _ hne
        rw [ht] at hm
        have hr := (Finset.mem_filter.1 hm).1
        rw [Multiset.mem_toFinset] at hr
        have hroot := Polynomial.isRoot_of_mem_roots hr
        have e := polyfit_distance deg ((vnorm normal)⁻¹ • normal) offset (fun k => traj (stencil N deg i k))
        have : (polyfit deg fun k => planeDistance normal offset (traj (stencil N deg i k))).eval t = 0 := hroot
        unfold planeDistance at this
        rw [e] at this
        unfold planeDistance
        simp only [dotProduct, Fin.sum_univ_three]
        simp only [Polynomial.eval_sub, Polynomial.eval_add, Polynomial.eval_smul, Polynomial.eval_C, smul_eq_mul] at this
        linarith
      · cases ht
  · cases h

/-- **C66 (finding)** the documented plane is `n·x = offset` for a normal vector that "does not need to be normalized"; unless the normal has
length one or the offset is zero, no reported point lies on it. -/
theorem C66_interp_wrong_plane (normal : V3) (hn : normal ≠ 0) (hl : normal ⬝ᵥ normal ≠ 1) {offset : ℝ} (ho : offset ≠ 0) (traj : Nat → V3) (N deg i : Nat) (x : V3)
    (h : interpCrossing normal offset traj N deg i = some x) : normal ⬝ᵥ x ≠ offset := by
  have hs := C66_interp_sound normal offset traj N deg i x h
  unfold planeDistance at hs
  rw [dotProduct_smul, smul_eq_mul, dotProduct_comm] at hs
  have hpos : 0 < normal ⬝ᵥ normal := by
    by_contra hc
    push Not at hc
    simp only [dotProduct, Fin.sum_univ_three] at hc
    apply hn
    have h0 := mul_self_nonneg (normal 0)
    have h1 := mul_self_nonneg (normal 1)
    have h2 := mul_self_nonneg (normal 2)
    ext c
    fin_cases c
    · exact mul_self_eq_zero.1 (by linarith : normal 0 * normal 0 = 0)
    · exact mul_self_eq_zero.1 (by linarith : normal 1 * normal 1 = 0)
    · exact mul_self_eq_zero.1 (by linarith : normal 2 * normal 2 = 0)
  have hv : 0 < vnorm normal := Real.sqrt_pos.2 hpos
  intro he
  rw [he] at hs
  have h1 : (vnorm normal)⁻¹ = 1 := by
    have : ((vnorm normal)⁻¹ - 1) * offset = 0 := by linarith
    rcases mul_eq_zero.1 this with h | h
    · linarith
    · exact absurd h ho
  have h2 : vnorm normal = 1 := inv_eq_one.1 h1
  apply hl
  have := Real.sq_sqrt hpos.le
  unfold vnorm at h2
  rw [h2] at this
  linarith

/-- The line through two values. -/
theorem polyfit_one (v : Nat → ℝ) : polyfit 1 v = Polynomial.C (v 1 - v 0) * Polynomial.X + Polynomial.C (v 0) := by
  unfold polyfit
  symm
  apply Lagrange.eq_interpolate_of_eval_eq _ (nodes_injOn 1)
  · rw [Finset.card_range]
    refine lt_of_le_of_lt Polynomial.degree_linear_le ?_
    norm_num
  · intro i hi
    rw [Finset.mem_range] at hi
    interval_cases i <;> simp

/-- **C66** linear interpolation (`deg = 1`): every segment on which the signed distance changes sign gives a point of that segment. -/
theorem C66_interp_linear (normal : V3) (offset : ℝ) (traj : Nat → V3) (N i : Nat) (hi : i + 1 < N)
    (h : flipMask normal offset traj i = true) :
    ∃ x, interpCrossing normal offset traj N 1 i = some x ∧ OnSegment (traj i) (traj (i + 1)) x := by
  unfold flipMask at h
  rw [decide_eq_true_eq] at h
  obtain ⟨a, ha⟩ : ∃ a, a = planeDistance normal offset (traj i) := ⟨_, rfl⟩
  obtain ⟨b, hb⟩ : ∃ b, b = planeDistance normal offset (traj (i + 1)) := ⟨_, rfl⟩
  rw [← ha, ← hb] at h
  have hne : b - a ≠ 0 := by
    intro h0
    have : b = a := by linarith
    rw [this] at h
    nlinarith [mul_self_nonneg a]
  have s0 : stencil N 1 i 0 = i := by unfold stencil; simp; omega
  have s1 : stencil N 1 i 1 = i + 1 := by unfold stencil; simp; omega
  have hP : polyfit 1 (fun k => planeDistance normal offset (traj (stencil N 1 i k))) = Polynomial.C (b - a) * Polynomial.X + Polynomial.C a := by
    rw [polyfit_one]; simp only [s0, s1, ← ha, ← hb]
  have hroots : ∀ t : ℝ, (t ∈ (Polynomial.C (b - a) * Polynomial.X + Polynomial.C a).roots.toFinset) ↔ t = a / (a - b) := by
    intro t
    rw [Multiset.mem_toFinset, Polynomial.mem_roots (by
      intro h0
      have := congrArg (fun p => p.coeff 1) h0
      simp at this
      exact hne this)]
    simp only [Polynomial.IsRoot, Polynomial.eval_add, Polynomial.eval_mul, Polynomial.eval_C, Polynomial.eval_X]
    have hne' : a - b ≠ 0 := by intro h0; apply hne; linarith
    rw [eq_div_iff hne']
    constructor <;> intro h <;> linarith
  have hab : a - b ≠ 0 := by intro h0; apply hne; linarith
  obtain ⟨t0, t1⟩ := crossing_parameter h.le hab
  have ha0 : a ≠ 0 := by rintro rfl; simp at h
  have hb0 : b ≠ 0 := by rintro rfl; simp at h
  have t0' : 0 < a / (a - b) := lt_of_le_of_ne t0 (by symm; exact div_ne_zero ha0 hab)
  have t1' : a / (a - b) < 1 := lt_of_le_of_ne t1 (by
    intro h1; rw [div_eq_one_iff_eq hab] at h1; apply hb0; linarith)
  have hset : (Polynomial.C (b - a) * Polynomial.X + Polynomial.C a).roots.toFinset.filter (fun t : ℝ => 0 < t ∧ t < ((1 : Nat) : ℝ)) = {a / (a - b)} := by
    ext t
    rw [Finset.mem_filter, hroots, Finset.mem_singleton]
    constructor
    · exact fun h => h.1
    · rintro rfl; exact ⟨rfl, t0', by simpa using t1'⟩
  have hcp : crossingParameter 1 (Polynomial.C (b - a) * Polynomial.X + Polynomial.C a) = some (a / (a - b)) := by
    unfold crossingParameter
    rw [if_neg (by simpa using hne)]
    simp only [hset]
    rw [dif_pos (Finset.singleton_nonempty _), Finset.min'_singleton]
  refine ⟨_, ?_, a / (a - b), t0, t1, rfl⟩
  unfold interpCrossing
  rw [if_pos ⟨by simp, by simp; omega⟩, hP, hcp, Option.map_some]
  congr 1
  funext c
  rw [polyfit_one]
  simp only [s0, s1, Polynomial.eval_add, Polynomial.eval_mul, Polynomial.eval_C, Polynomial.eval_X, Pi.add_apply, Pi.smul_apply, Pi.sub_apply, smul_eq_mul]
  ring

/-- **C66** the reported indices are, in increasing order, the segments with a sign change, followed by padding with `N`. -/
theorem C66_interp_indices (normal : V3) (offset : ℝ) (traj : Nat → V3) (N : Nat) :
    (crossingIdxs normal offset traj N).length = N
      ∧ (crossingIdxs normal offset traj N).Pairwise (· ≤ ·)
      ∧ ∀ i, i < N → (i ∈ crossingIdxs normal offset traj N ↔ i + 1 < N ∧ flipMask normal offset traj i = true) := by
  unfold crossingIdxs
  simp only
  obtain ⟨L, hL⟩ : ∃ L, L = (List.range (N - 1)).map fun i => if flipMask normal offset traj i then i else N := ⟨_, rfl⟩
  rw [← hL]
  have hlen : L.mergeSort.length = N - 1 := by rw [List.length_mergeSort, hL]; simp
  have hfull : (L.mergeSort ++ List.replicate (N - L.mergeSort.length) N).length = N := by
    rw [List.length_append, List.length_replicate, hlen]; omega
  have hle : ∀ a ∈ L.mergeSort, a ≤ N := by
    intro a ha
    rw [List.mem_mergeSort, hL] at ha
    obtain ⟨i, hi, rfl⟩ := List.mem_map.1 ha
    rw [List.mem_range] at hi
    split <;> omega
  rw [List.take_of_length_le (le_of_eq hfull)]
  refine ⟨hfull, ?_, ?_⟩
  · rw [List.pairwise_append]
    refine ⟨?_, List.pairwise_replicate_of_refl, ?_⟩
    · have := List.pairwise_mergeSort (le := fun a b : Nat => decide (a ≤ b)) (by simp; intro a b c; omega) (by simp; intro a b; omega) L
      simpa using this
    · intro a ha b hb
      rw [List.mem_replicate] at hb
      rw [hb.2]; exact hle a ha
  · intro i hi
    rw [List.mem_append, List.mem_mergeSort, hL, List.mem_map, List.mem_replicate]
    constructor
    · rintro (⟨j, hj, he⟩ | ⟨_, h⟩)
      · rw [List.mem_range] at hj
        split at he
        · rename_i hf; subst he; exact ⟨by omega, hf⟩
        · omega
      · omega
    · rintro ⟨h1, h2⟩
      exact .inl ⟨i, List.mem_range.2 (by omega), by rw [if_pos h2]⟩

/-- **C66 (finding)** a trajectory that passes through the plane exactly at a sample is not recorded: the indices of both adjacent segments
are missing. -/
theorem C66_interp_vertex_missed (normal : V3) (offset : ℝ) (traj : Nat → V3) (N i : Nat) (hi : i + 2 < N)
    (h : planeDistance normal offset (traj (i + 1)) = 0) :
    i ∉ crossingIdxs normal offset traj N ∧ i + 1 ∉ crossingIdxs normal offset traj N := by
  obtain ⟨-, -, key⟩ := C66_interp_indices normal offset traj N
  rw [key i (by omega), key (i + 1) (by omega)]
  simp [flipMask, h]

/-- **C66** the two results of `intersect_with_plane` belong together: both have `N` entries, every point that is reported lies on the plane,
entries with the padding index `N` are NaN, and with linear interpolation every segment with a sign change has an entry, at the position
of its index, which is a point of that segment. -/
theorem C66_interp_result (normal : V3) (offset : ℝ) (traj : Nat → V3) (N deg : Nat) :
    let r := intersectWithPlane traj N normal offset deg
    r.1.length = N ∧ r.2.length = N ∧
    (∀ (j : Nat) (x : V3), r.1[j]? = some (some x) → planeDistance normal offset x = 0) ∧
    (∀ j : Nat, r.2[j]? = some N → r.1[j]? = some none) ∧
    (deg = 1 → ∀ i, i + 1 < N → flipMask normal offset traj i = true →
      ∃ (j : Nat) (x : V3), r.2[j]? = some i ∧ r.1[j]? = some (some x) ∧ OnSegment (traj i) (traj (i + 1)) x) := by
  intro r
  obtain ⟨h1, h2, h3⟩ := C66_interp_indices normal offset traj N
  have e1 : ∀ j : Nat, r.1[j]? = (r.2[j]?).map (interpCrossing normal offset traj N deg) := fun j => List.getElem?_map ..
  refine ⟨by simpa [r, intersectWithPlane] using h1, h1, fun j x hx => ?_, fun j hj => ?_, fun hd i hi hf => ?_⟩
  · rw [e1] at hx
    obtain ⟨i, -, e⟩ := Option.map_eq_some_iff.mp hx
    exact C66_interp_sound normal offset traj N deg i x e
  · rw [e1, hj]
    have : ¬ (deg / 2 ≤ N ∧ (N : Int) < N - (deg / 2 : Nat)) := by
      have : (0 : Int) ≤ ((deg / 2 : Nat) : Int) := Int.natCast_nonneg _
      omega
    simp only [Option.map_some, interpCrossing, if_neg this]
  · obtain ⟨j, hj⟩ := List.mem_iff_getElem?.mp ((h3 i (by omega)).mpr ⟨hi, hf⟩)
    subst hd
    obtain ⟨x, hx, hs⟩ := C66_interp_linear normal offset traj N i hi hf
    refine ⟨j, x, hj, ?_, hs⟩
    rw [e1]
    have : r.2[j]? = some i := hj
    rw [this, Option.map_some, hx]

/-- The parabola through `1, −1, 1`. -/
theorem polyfit_two : polyfit 2 (fun k => if k = 1 then (-1 : ℝ) else 1) = Polynomial.C 2 * Polynomial.X ^ 2 - Polynomial.C 4 * Polynomial.X + Polynomial.C 1 := by
  unfold polyfit
  symm
  apply Lagrange.eq_interpolate_of_eval_eq _ (nodes_injOn 2)
  · rw [Finset.card_range]
    have : (Polynomial.C (2 : ℝ) * Polynomial.X ^ 2 - Polynomial.C 4 * Polynomial.X + Polynomial.C 1).degree ≤ 2 := by compute_degree
    exact lt_of_le_of_lt this (by norm_num)
  · intro i hi
    rw [Finset.mem_range] at hi
    interval_cases i <;> simp <;> norm_num

/-- The trajectory `(1, 0, 0), (−1, 1, 0), (1, 2, 0)`. -/
def zigzag (k : Nat) : V3 := ![if k = 1 then -1 else 1, k, 0]

/-- **C66 (finding)** with the default degree 2, a trajectory that crosses the plane `x = 0` between samples 0 and 1 and back between samples 1
and 2: for the second crossing the function reports the point of the first one (its second coordinate is below 1, that is before
sample 1), and for the first one NaN. -/
theorem C66_interp_quadratic_wrong_crossing :
    flipMask ![1, 0, 0] 0 zigzag 0 = true ∧ flipMask ![1, 0, 0] 0 zigzag 1 = true
      ∧ interpCrossing ![1, 0, 0] 0 zigzag 3 2 0 = none
      ∧ ∃ x, interpCrossing ![1, 0, 0] 0 zigzag 3 2 1 = some x ∧ x 1 < 1 ∧ ¬ OnSegment (zigzag 1) (zigzag 2) x := by
  have hv : vnorm ![1, 0, 0] = 1 := by simp [vnorm, dotProduct, Fin.sum_univ_three]
  have hd : ∀ k, planeDistance ![1, 0, 0] 0 (zigzag k) = if k = 1 then -1 else 1 := by
    intro k
    unfold planeDistance
    rw [hv]
    simp [dotProduct, Fin.sum_univ_three, zigzag]
  refine ⟨by simp [flipMask, hd], by simp [flipMask, hd], by simp [interpCrossing], ?_⟩
  have hst : ∀ k, k ≤ 2 → stencil 3 2 1 k = k := by
    intro k hk; unfold stencil; interval_cases k <;> rfl
  have congr_fit : ∀ f g : Nat → ℝ, (∀ k, k ≤ 2 → f k = g k) → polyfit 2 f = polyfit 2 g := by
    intro f g h
    unfold polyfit
    apply Lagrange.interpolate_eq_of_values_eq_on
    intro i hi
    rw [Finset.mem_range] at hi
    exact h i (by omega)
  have e1 : polyfit 2 (fun k => planeDistance ![1, 0, 0] 0 (zigzag (stencil 3 2 1 k)))
      = Polynomial.C 2 * Polynomial.X ^ 2 - Polynomial.C 4 * Polynomial.X + Polynomial.C 1 := by
    rw [← polyfit_two]
    apply congr_fit
    intro k hk; rw [hst k hk, hd]
  have e2 : polyfit 2 (fun k => zigzag (stencil 3 2 1 k) 1) = Polynomial.X := by
    unfold polyfit
    symm
    apply Lagrange.eq_interpolate_of_eval_eq _ (nodes_injOn 2)
    · rw [Finset.card_range, Polynomial.degree_X]; norm_num
    · intro i hi
      rw [Finset.mem_range] at hi
      rw [hst i (by omega)]
      simp [zigzag]
  have hs2 : (√ 2) ^ 2 = 2 := Real.sq_sqrt (by norm_num)
  have hs0 : 0 < √ 2 := Real.sqrt_pos.2 (by norm_num)
  have hs1 : √ 2 < 2 := by nlinarith
  have hcoeff : (Polynomial.C (2 : ℝ) * Polynomial.X ^ 2 - Polynomial.C 4 * Polynomial.X + Polynomial.C 1).coeff 2 = 2 := by
    simp [Polynomial.coeff_X, Polynomial.coeff_one]
  have hne0 : (Polynomial.C (2 : ℝ) * Polynomial.X ^ 2 - Polynomial.C 4 * Polynomial.X + Polynomial.C 1) ≠ 0 := by
    intro h0
    rw [h0] at hcoeff
    norm_num at hcoeff
  have hmem : (1 - √ 2 / 2) ∈ (Polynomial.C (2 : ℝ) * Polynomial.X ^ 2 - Polynomial.C 4 * Polynomial.X + Polynomial.C 1).roots.toFinset.filter (fun t : ℝ => 0 < t ∧ t < ((2 : Nat) : ℝ)) := by
    rw [Finset.mem_filter, Multiset.mem_toFinset, Polynomial.mem_roots hne0]
    refine ⟨?_, by linarith, by push_cast; linarith⟩
    simp only [Polynomial.IsRoot, Polynomial.eval_add, Polynomial.eval_sub, Polynomial.eval_mul, Polynomial.eval_C, Polynomial.eval_X, Polynomial.eval_pow]
    linear_combination (1 / 2) * hs2
  obtain ⟨t, ht, htle⟩ : ∃ t, crossingParameter 2 (Polynomial.C (2 : ℝ) * Polynomial.X ^ 2 - Polynomial.C 4 * Polynomial.X + Polynomial.C 1) = some t ∧ t ≤ 1 - √ 2 / 2 := by
    unfold crossingParameter
    rw [if_neg (by rw [hcoeff]; norm_num)]
    simp only
    rw [dif_pos ⟨_, hmem⟩]
    exact ⟨_, rfl, Finset.min'_le _ _ hmem⟩
  have hx1 : (polyfit 2 (fun k => zigzag (stencil 3 2 1 k) 1)).eval t < 1 := by
    rw [e2, Polynomial.eval_X]; linarith
  refine ⟨fun c => (polyfit 2 (fun k => zigzag (stencil 3 2 1 k) c)).eval t, ?_, hx1, ?_⟩
  · unfold interpCrossing
    rw [if_pos (by decide), e1, ht]
    rfl
  · rintro ⟨τ, τ0, τ1, he⟩
    have := congrFun he 1
    simp only [Pi.add_apply, Pi.smul_apply, Pi.sub_apply, smul_eq_mul] at this
    rw [this] at hx1
    simp [zigzag] at hx1
    linarith

/-- Cases of the remaining theorems of C66. -/
example := C66_jit_mask (D := 3) (pv := 1 / 2) (by norm_num) 1
example := C66_jit_in_plane (D := 3) (pv := 1 / 2) (by norm_num) 1 ![0, 1 / 2, 0] ![1, 1 / 2, 3] (by simp) (by simp)
example := C66_interp_linear ![1, 0, 0] (1 / 2) (fun k => ![k, 0, 0]) 5 0 (by norm_num) (by
  have h1 : vnorm ![1, 0, 0] = 1 := by unfold vnorm; simp [dotProduct, Fin.sum_univ_three]
  unfold flipMask planeDistance; rw [h1]; norm_num [dotProduct, Fin.sum_univ_three, Matrix.cons_val_two])

end Mrx.Props
