import Verif.Proofs.PolarSums
import Verif.Spec.Polar

/-! # Coefficients produced by the polar extraction operator -/

set_option linter.unusedSectionVars false

namespace Mrx
open Finset Jax Spec Matrix

/-- Extension of a vector by zero. -/
def ext0 {n : Nat} (u : Fin n → ℝ) (m : Nat) : ℝ := if h : m < n then u ⟨m, h⟩ else 0

namespace PolarOp

variable (P : PolarOp)

/-- Standard sizes: `dr = nr - 1`, periodic poloidal direction, at least 3 radial splines; for 2- and 3-forms
also the axial direction is of periodic type. -/
structure Std : Prop where
  k : Dims.validDegree P.Λ.k
  nr : 3 ≤ P.Λ.nr
  dr : P.Λ.dr = P.Λ.nr - 1
  dt : P.Λ.dt = P.Λ.nt
  dz : P.Λ.k = 0 ∨ P.Λ.k = 1 ∨ P.Λ.k = -1 ∨ P.Λ.dz = P.Λ.nz

theorem o_le : P.o ≤ 1 := by unfold o; split <;> omega

theorem transpose_mulVec (u : Fin P.n → ℝ) (c : Fin P.Λ.n) :
    (P.matrixᵀ *ᵥ u) c = ∑ r ∈ range P.n, P.element r c * ext0 u r := by
  rw [Finset.sum_range]
  simp only [Matrix.mulVec, dotProduct, Matrix.transpose_apply, matrix, ext0]
  refine sum_congr rfl fun r _ => ?_
  rw [dif_pos r.2]

theorem vectorIndex_block (h0 : P.Λ.k ≠ 0) (h3 : P.Λ.k ≠ 3) :
    (∀ r < P.n1, P.vectorIndex r = (0, r)) ∧ (∀ r < P.n2, P.vectorIndex (P.n1 + r) = (1, r)) ∧
    (∀ r < P.n3, P.vectorIndex (P.n1 + P.n2 + r) = (2, r)) := by
  refine ⟨?_, ?_, ?_⟩
  · intro r hr
    unfold vectorIndex
    rw [if_neg (by tauto), if_neg (by omega), if_neg (by omega)]; simp
  · intro r hr
    unfold vectorIndex
    rw [if_neg (by tauto), if_pos (by omega), if_neg (by omega)]; simp
  · intro r hr
    unfold vectorIndex
    rw [if_neg (by tauto), if_pos (by omega), if_pos (by omega)]; simp; omega

theorem sum_blocks (g : Nat → ℝ) : ∑ r ∈ range P.n, g r = ∑ r ∈ range P.n1, g r
    + ∑ r ∈ range P.n2, g (P.n1 + r) + ∑ r ∈ range P.n3, g (P.n1 + P.n2 + r) := by
  unfold n; rw [sum_range_add, sum_range_add]

theorem discSize_eq (t z : Nat) : P.discSize t z = 3 * z + (P.Λ.nr - 2 - P.o) * t * z := by
  unfold discSize; ring
theorem ringSize_eq (t z : Nat) : P.ringSize t z = 2 * z + (P.Λ.nr - 2 - P.o) * t * z := by
  unfold ringSize; ring

/-- Value of the disc part of a column sum. -/
noncomputable def discVal (U : Nat → ℝ) (t z i j l : Nat) : ℝ :=
  (if i < 2 then ∑ p ∈ range 3, P.ξ.get p i j * U (p * z + l) else 0)
    + (if 2 ≤ i ∧ i < P.Λ.nr - P.o then U (3 * z + (((i - 2) * t + j) * z + l)) else 0)

theorem sum_disc (hnr : 3 ≤ P.Λ.nr) {t z i j l : Nat} (hi : i < P.Λ.nr) (hj : j < t) (hl : l < z) (U : Nat → ℝ) :
    ∑ r ∈ range (P.discSize t z), (if r < 3 * z then P.innerZeroform r ((i * t + j) * z + l) P.Λ.nr t z
        else P.outerZeroform (r - 3 * z) ((i * t + j) * z + l) P.Λ.nr t z) * U r = P.discVal U t z i j l := by
  have ho := P.o_le
  rw [P.discSize_eq, sum_range_add]
  unfold discVal
  congr 1
  · rw [← P.sum_innerZeroform hi hj hl U]
    refine sum_congr rfl fun r hr => ?_
    rw [if_pos (mem_range.mp hr)]
  · rw [← P.sum_outerZeroform hi hj hl (fun r => U (3 * z + r)) (by omega)]
    refine sum_congr rfl fun r hr => ?_
    rw [if_neg (by omega), Nat.add_sub_cancel_left]

theorem coef_eq {d : Dims} (hk : Dims.validDegree d.k) {c i j l : Nat} (h : d.InRange c i j l) (v : Fin d.n → ℝ) :
    coef d v c i j l = v ⟨d.ravelIndex c i j l, d.ravelIndex_lt hk h⟩ := by
  unfold coef; rw [dif_pos (d.ravelIndex_lt hk h)]

section
variable (hs : P.Std) (u : Fin P.n → ℝ)
include hs

theorem inRange_iff {c i j l : Nat} : P.Λ.InRange c i j l ↔
    c < P.Λ.shape.length ∧ i < (P.Λ.cshape c).1 ∧ j < P.Λ.nt ∧ l < (P.Λ.cshape c).2.2 := by
  constructor
  · intro h
    refine ⟨h.comp_lt, h.1, ?_, h.2.2⟩
    have hc := h.comp_lt
    have := h.2.1
    rcases hs.k with hk | hk | hk | hk | hk <;> simp only [Dims.shape, hk] at hc <;> simp at hc <;>
      (try subst hc) <;> (try interval_cases c) <;>
      simpa [Dims.cshape, Dims.shape, hk, hs.dt] using this
  · rintro ⟨hc, hi, hj, hl⟩
    refine ⟨hi, ?_, hl⟩
    rcases hs.k with hk | hk | hk | hk | hk <;> simp only [Dims.shape, hk] at hc <;> simp at hc <;>
      (try subst hc) <;> (try interval_cases c) <;>
      simpa [Dims.cshape, Dims.shape, hk, hs.dt] using hj

theorem cshape_t {c : Nat} (hc : c < P.Λ.shape.length) : (P.Λ.cshape c).2.1 = P.Λ.nt := by
  rcases hs.k with hk | hk | hk | hk | hk <;> simp only [Dims.shape, hk] at hc <;> simp at hc <;>
        (try subst hc) <;> (try interval_cases c) <;>
        simp [Dims.cshape, Dims.shape, hk, hs.dt]

theorem col_flat {c i j l : Nat} (h : P.Λ.InRange c i j l) :
    P.Λ.vectorIndex (P.Λ.ravelIndex c i j l) = (c, (i * P.Λ.nt + j) * (P.Λ.cshape c).2.2 + l) ∧
    (P.Λ.k = 0 ∨ P.Λ.k = 3 → P.Λ.ravelIndex c i j l = (i * P.Λ.nt + j) * (P.Λ.cshape c).2.2 + l) := by
  have e1 := P.cshape_t hs h.comp_lt
  have hr := P.Λ.ravelIndex_eq hs.k h
  rw [e1] at hr
  have hv := P.Λ.vectorIndex_eq hs.k h
  rw [e1] at hv
  refine ⟨by rw [hr, hv], ?_⟩
  intro h03
  rw [hr]
  have hc := h.comp_lt
  have : c = 0 := by rcases h03 with h | h <;> simp [Dims.shape, h] at hc <;> exact hc
  subst this; simp [Dims.off]

theorem coef0 (hk : P.Λ.k = 0) {i j l : Nat} (hi : i < P.Λ.nr) (hj : j < P.Λ.nt) (hl : l < P.Λ.nz) :
    coef P.Λ (P.matrixᵀ *ᵥ u) 0 i j l = P.discVal (ext0 u) P.Λ.nt P.Λ.nz i j l := by
  have hz0 : (P.Λ.cshape 0).2.2 = P.Λ.nz := by simp [Dims.cshape, Dims.shape, hk]
  have hin : P.Λ.InRange 0 i j l := (P.inRange_iff hs).mpr ⟨by simp [Dims.shape, hk],
    by simpa [Dims.cshape, Dims.shape, hk] using hi, hj, by rw [hz0]; exact hl⟩
  obtain ⟨hcf, hcf2⟩ := P.col_flat hs hin
  rw [hz0] at hcf hcf2
  rw [coef_eq hs.k hin, P.transpose_mulVec]
  simp only [hcf2 (Or.inl hk)]
  rw [← P.sum_disc hs.nr hi hj hl]
  have : P.n = P.discSize P.Λ.nt P.Λ.nz := by simp [n, n1, n2, n3, hk]
  generalize ext0 u = U
  rw [this]
  refine sum_congr rfl fun r _ => ?_
  simp only [element, hk, if_true]

theorem coef3 (hk : P.Λ.k = 3) {i j l : Nat} (hi : i < P.Λ.dr) (hj : j < P.Λ.nt) (hl : l < P.Λ.nz) :
    coef P.Λ (P.matrixᵀ *ᵥ u) 0 i j l = if 1 ≤ i then ext0 u (((i - 1) * P.Λ.nt + j) * P.Λ.nz + l) else 0 := by
  have hdz : P.Λ.dz = P.Λ.nz := by have := hs.dz; omega
  have hz0 : (P.Λ.cshape 0).2.2 = P.Λ.nz := by simp [Dims.cshape, Dims.shape, hk, hdz]
  have hin : P.Λ.InRange 0 i j l := (P.inRange_iff hs).mpr ⟨by simp [Dims.shape, hk],
    by simpa [Dims.cshape, Dims.shape, hk] using hi, hj, by rw [hz0]; exact hl⟩
  obtain ⟨hcf, hcf2⟩ := P.col_flat hs hin
  rw [hz0] at hcf hcf2
  rw [coef_eq hs.k hin, P.transpose_mulVec]
  simp only [hcf2 (Or.inr hk)]
  have hd := hs.dr
  have hnr := hs.nr
  have h3 := sum_threeform (nr := P.Λ.nr) (by omega) hj hl (ext0 u) (d := P.Λ.dr) (i := i) (by omega)
  have : P.n = (P.Λ.dr - 1) * P.Λ.nt * P.Λ.nz := by simp [n, n1, n2, n3, hk, hs.dt, hdz]
  generalize ext0 u = U at *
  rw [this]
  have e : (1 ≤ i ∧ i < P.Λ.dr) ↔ 1 ≤ i := by omega
  simp only [e] at h3
  rw [← h3]
  refine sum_congr rfl fun r _ => ?_
  simp [element, hk]

/-- contribution of the inner rows (two control differences) in radial / poloidal direction -/
noncomputable def ringR (U : Nat → ℝ) (z j l : Nat) : ℝ :=
  ∑ p ∈ range 2, (P.ξ.get (p + 1) 1 j - P.ξ.get (p + 1) 0 j) * U (p * z + l)
noncomputable def ringT (U : Nat → ℝ) (t z j l : Nat) : ℝ :=
  ∑ p ∈ range 2, (P.ξ.get (p + 1) 1 ((j + 1) % t) - P.ξ.get (p + 1) 1 j) * U (p * z + l)

theorem coef1 (hk : P.Λ.k = 1) {i j l : Nat} (hj : j < P.Λ.nt) :
    (l < P.Λ.nz → i < P.Λ.dr → coef P.Λ (P.matrixᵀ *ᵥ u) 0 i j l =
      (if 1 ≤ i then ext0 u (((i - 1) * P.Λ.nt + j) * P.Λ.nz + l) else 0)
      + (if i = 0 then P.ringR (fun m => ext0 u (P.n1 + m)) P.Λ.nz j l else 0)) ∧
    (l < P.Λ.nz → i < P.Λ.nr → coef P.Λ (P.matrixᵀ *ᵥ u) 1 i j l =
      (if i = 1 then P.ringT (fun m => ext0 u (P.n1 + m)) P.Λ.nt P.Λ.nz j l else 0)
      + (if 2 ≤ i ∧ i < P.Λ.nr - P.o then
          ext0 u (P.n1 + (2 * P.Λ.nz + (((i - 2) * P.Λ.nt + j) * P.Λ.nz + l))) else 0)) ∧
    (l < P.Λ.dz → i < P.Λ.nr → coef P.Λ (P.matrixᵀ *ᵥ u) 2 i j l =
      P.discVal (fun m => ext0 u (P.n1 + P.n2 + m)) P.Λ.nt P.Λ.dz i j l) := by
  have hz0 : (P.Λ.cshape 0).2.2 = P.Λ.nz := by simp [Dims.cshape, Dims.shape, hk]
  have hz1 : (P.Λ.cshape 1).2.2 = P.Λ.nz := by simp [Dims.cshape, Dims.shape, hk]
  have hz2 : (P.Λ.cshape 2).2.2 = P.Λ.dz := by simp [Dims.cshape, Dims.shape, hk]
  have ho := P.o_le
  have hnr := hs.nr
  have hdr := hs.dr
  obtain ⟨b0, b1, b2⟩ := P.vectorIndex_block (by omega) (by omega)
  have e1 : P.n1 = (P.Λ.dr - 1) * P.Λ.nt * P.Λ.nz := by simp [n1, hk]
  have e2 : P.n2 = 2 * P.Λ.nz + (P.Λ.nr - 2 - P.o) * P.Λ.nt * P.Λ.nz := by
    simp [n2, hk, hs.dt, ringSize_eq]
  have e3 : P.n3 = P.discSize P.Λ.nt P.Λ.dz := by simp [n3, hk]
  refine ⟨fun hl hi => ?_, fun hl hi => ?_, fun hl hi => ?_⟩
  · have hin : P.Λ.InRange 0 i j l := (P.inRange_iff hs).mpr ⟨by simp [Dims.shape, hk],
      by simpa [Dims.cshape, Dims.shape, hk] using hi, hj, by rw [hz0]; exact hl⟩
    obtain ⟨hcf, hcf2⟩ := P.col_flat hs hin
    rw [hz0] at hcf hcf2
    rw [coef_eq hs.k hin, P.transpose_mulVec, P.sum_blocks]
    have h0 : ∑ r ∈ range P.n1, P.element r (P.Λ.ravelIndex 0 i j l) * ext0 u r
        = if 1 ≤ i then ext0 u (((i - 1) * P.Λ.nt + j) * P.Λ.nz + l) else 0 := by
      have h3 := sum_threeform (nr := P.Λ.dr) (by omega) hj hl (ext0 u) (d := P.Λ.dr) (i := i) le_rfl
      have e : (1 ≤ i ∧ i < P.Λ.dr) ↔ 1 ≤ i := by omega
      simp only [e] at h3
      rw [← h3, ← e1]
      refine sum_congr rfl fun r hr => ?_
      simp [element, hk, b0 r (mem_range.mp hr), hcf]
    have h1 : ∑ r ∈ range P.n2, P.element (P.n1 + r) (P.Λ.ravelIndex 0 i j l) * ext0 u (P.n1 + r)
        = if i = 0 then P.ringR (fun m => ext0 u (P.n1 + m)) P.Λ.nz j l else 0 := by
      rw [e2, sum_range_add]
      have z1 : ∀ r ∈ range ((P.Λ.nr - 2 - P.o) * P.Λ.nt * P.Λ.nz),
          P.element (P.n1 + (2 * P.Λ.nz + r)) (P.Λ.ravelIndex 0 i j l) * ext0 u (P.n1 + (2 * P.Λ.nz + r)) = 0 := by
        intro r hr
        rw [mem_range] at hr
        simp [element, hk, b1 (2 * P.Λ.nz + r) (by omega), hcf]
      rw [sum_eq_zero z1, add_zero]
      unfold ringR
      rw [← P.sum_innerOneformR hi hj hl (fun m => ext0 u (P.n1 + m))]
      refine sum_congr rfl fun r hr => ?_
      rw [mem_range] at hr
      simp [element, hk, b1 r (by omega), hcf, hr]
    have h2 : ∑ r ∈ range P.n3, P.element (P.n1 + P.n2 + r) (P.Λ.ravelIndex 0 i j l) * ext0 u (P.n1 + P.n2 + r) = 0 := by
      apply sum_eq_zero
      intro r hr
      rw [mem_range] at hr
      simp [element, hk, b2 r hr, hcf]
    rw [h0, h1, h2, add_zero]
  · have hin : P.Λ.InRange 1 i j l := (P.inRange_iff hs).mpr ⟨by simp [Dims.shape, hk],
      by simpa [Dims.cshape, Dims.shape, hk] using hi, hj, by rw [hz1]; exact hl⟩
    obtain ⟨hcf, hcf2⟩ := P.col_flat hs hin
    rw [hz1] at hcf hcf2
    rw [coef_eq hs.k hin, P.transpose_mulVec, P.sum_blocks]
    have h0 : ∑ r ∈ range P.n1, P.element r (P.Λ.ravelIndex 1 i j l) * ext0 u r = 0 := by
      apply sum_eq_zero
      intro r hr
      simp [element, hk, b0 r (mem_range.mp hr), hcf]
    have h2 : ∑ r ∈ range P.n3, P.element (P.n1 + P.n2 + r) (P.Λ.ravelIndex 1 i j l) * ext0 u (P.n1 + P.n2 + r) = 0 := by
      apply sum_eq_zero
      intro r hr
      rw [mem_range] at hr
      simp [element, hk, b2 r hr, hcf]
    rw [h0, h2, add_zero, zero_add, e2, sum_range_add]
    congr 1
    · unfold ringT
      rw [← P.sum_innerOneformT hi hj hl (fun m => ext0 u (P.n1 + m))]
      refine sum_congr rfl fun r hr => ?_
      rw [mem_range] at hr
      simp [element, hk, b1 r (by omega), hcf, hr, hs.dt]
    · rw [← P.sum_outerZeroform hi hj hl (fun m => ext0 u (P.n1 + (2 * P.Λ.nz + m))) (by omega)]
      refine sum_congr rfl fun r hr => ?_
      rw [mem_range] at hr
      simp [element, hk, b1 (2 * P.Λ.nz + r) (by omega), hcf, hs.dt]
  · have hin : P.Λ.InRange 2 i j l := (P.inRange_iff hs).mpr ⟨by simp [Dims.shape, hk],
      by simpa [Dims.cshape, Dims.shape, hk] using hi, hj, by rw [hz2]; exact hl⟩
    obtain ⟨hcf, hcf2⟩ := P.col_flat hs hin
    rw [hz2] at hcf hcf2
    rw [coef_eq hs.k hin, P.transpose_mulVec, P.sum_blocks]
    have h0 : ∑ r ∈ range P.n1, P.element r (P.Λ.ravelIndex 2 i j l) * ext0 u r = 0 := by
      apply sum_eq_zero
      intro r hr
      simp [element, hk, b0 r (mem_range.mp hr), hcf]
    have h1 : ∑ r ∈ range P.n2, P.element (P.n1 + r) (P.Λ.ravelIndex 2 i j l) * ext0 u (P.n1 + r) = 0 := by
      apply sum_eq_zero
      intro r hr
      rw [mem_range] at hr
      simp [element, hk, b1 r hr, hcf]
    rw [h0, h1, zero_add, zero_add, ← P.sum_disc hs.nr hi hj hl, e3]
    refine sum_congr rfl fun r hr => ?_
    rw [mem_range] at hr
    simp [element, hk, b2 r (by omega), hcf]

theorem coef2 (hk : P.Λ.k = 2) {i j l : Nat} (hj : j < P.Λ.nt) (hl : l < P.Λ.nz) :
    (i < P.Λ.nr → coef P.Λ (P.matrixᵀ *ᵥ u) 0 i j l =
      (if i = 1 then P.ringT (ext0 u) P.Λ.nt P.Λ.nz j l else 0)
      + (if 2 ≤ i ∧ i < P.Λ.nr - P.o then
          ext0 u (2 * P.Λ.nz + (((i - 2) * P.Λ.nt + j) * P.Λ.nz + l)) else 0)) ∧
    (i < P.Λ.dr → coef P.Λ (P.matrixᵀ *ᵥ u) 1 i j l =
      -(if i = 0 then P.ringR (ext0 u) P.Λ.nz j l else 0)
      + (if 1 ≤ i then ext0 u (P.n1 + (((i - 1) * P.Λ.nt + j) * P.Λ.nz + l)) else 0)) ∧
    (i < P.Λ.dr → coef P.Λ (P.matrixᵀ *ᵥ u) 2 i j l =
      if 1 ≤ i then ext0 u (P.n1 + P.n2 + (((i - 1) * P.Λ.nt + j) * P.Λ.nz + l)) else 0) := by
  have hdz : P.Λ.dz = P.Λ.nz := by have := hs.dz; omega
  have hz0 : (P.Λ.cshape 0).2.2 = P.Λ.nz := by simp [Dims.cshape, Dims.shape, hk, hdz]
  have hz1 : (P.Λ.cshape 1).2.2 = P.Λ.nz := by simp [Dims.cshape, Dims.shape, hk, hdz]
  have hz2 : (P.Λ.cshape 2).2.2 = P.Λ.nz := by simp [Dims.cshape, Dims.shape, hk, hdz]
  have ho := P.o_le
  have hnr := hs.nr
  have hdr := hs.dr
  obtain ⟨b0, b1, b2⟩ := P.vectorIndex_block (by omega) (by omega)
  have e1 : P.n1 = 2 * P.Λ.nz + (P.Λ.nr - 2 - P.o) * P.Λ.nt * P.Λ.nz := by
    simp [n1, hk, hs.dt, hdz, ringSize_eq]
  have e2 : P.n2 = (P.Λ.dr - 1) * P.Λ.nt * P.Λ.nz := by simp [n2, hk, hdz]
  have e3 : P.n3 = (P.Λ.dr - 1) * P.Λ.nt * P.Λ.nz := by simp [n3, hk, hs.dt]
  refine ⟨fun hi => ?_, fun hi => ?_, fun hi => ?_⟩
  · have hin : P.Λ.InRange 0 i j l := (P.inRange_iff hs).mpr ⟨by simp [Dims.shape, hk],
      by simpa [Dims.cshape, Dims.shape, hk] using hi, hj, by rw [hz0]; exact hl⟩
    obtain ⟨hcf, hcf2⟩ := P.col_flat hs hin
    rw [hz0] at hcf hcf2
    rw [coef_eq hs.k hin, P.transpose_mulVec, P.sum_blocks]
    have h1 : ∑ r ∈ range P.n2, P.element (P.n1 + r) (P.Λ.ravelIndex 0 i j l) * ext0 u (P.n1 + r) = 0 := by
      apply sum_eq_zero
      intro r hr
      rw [mem_range] at hr
      simp [element, hk, b1 r hr, hcf]
    have h2 : ∑ r ∈ range P.n3, P.element (P.n1 + P.n2 + r) (P.Λ.ravelIndex 0 i j l) * ext0 u (P.n1 + P.n2 + r) = 0 := by
      apply sum_eq_zero
      intro r hr
      rw [mem_range] at hr
      simp [element, hk, b2 r hr, hcf]
    rw [h1, h2, add_zero, add_zero, e1, sum_range_add]
    congr 1
    · unfold ringT
      rw [← P.sum_innerOneformT hi hj hl (ext0 u)]
      refine sum_congr rfl fun r hr => ?_
      rw [mem_range] at hr
      simp [element, hk, b0 r (by omega), hcf, hr, hs.dt, hdz]
    · rw [← P.sum_outerZeroform hi hj hl (fun m => ext0 u (2 * P.Λ.nz + m)) (by omega)]
      refine sum_congr rfl fun r hr => ?_
      rw [mem_range] at hr
      simp [element, hk, b0 (2 * P.Λ.nz + r) (by omega), hcf, hs.dt, hdz]
  · have hin : P.Λ.InRange 1 i j l := (P.inRange_iff hs).mpr ⟨by simp [Dims.shape, hk],
      by simpa [Dims.cshape, Dims.shape, hk] using hi, hj, by rw [hz1]; exact hl⟩
    obtain ⟨hcf, hcf2⟩ := P.col_flat hs hin
    rw [hz1] at hcf hcf2
    rw [coef_eq hs.k hin, P.transpose_mulVec, P.sum_blocks]
    have h2 : ∑ r ∈ range P.n3, P.element (P.n1 + P.n2 + r) (P.Λ.ravelIndex 1 i j l) * ext0 u (P.n1 + P.n2 + r) = 0 := by
      apply sum_eq_zero
      intro r hr
      rw [mem_range] at hr
      simp [element, hk, b2 r hr, hcf]
    rw [h2, add_zero]
    congr 1
    · rw [e1, sum_range_add]
      have z1 : ∀ r ∈ range ((P.Λ.nr - 2 - P.o) * P.Λ.nt * P.Λ.nz),
          P.element (2 * P.Λ.nz + r) (P.Λ.ravelIndex 1 i j l) * ext0 u (2 * P.Λ.nz + r) = 0 := by
        intro r hr
        rw [mem_range] at hr
        simp [element, hk, b0 (2 * P.Λ.nz + r) (by omega), hcf]
      rw [sum_eq_zero z1, add_zero]
      unfold ringR
      rw [← P.sum_innerOneformR hi hj hl (ext0 u), ← sum_neg_distrib]
      refine sum_congr rfl fun r hr => ?_
      rw [mem_range] at hr
      simp [element, hk, b0 r (by omega), hcf, hr, hdz]
    · have h3 := sum_threeform (nr := P.Λ.dr) (by omega) hj hl (fun m => ext0 u (P.n1 + m)) (d := P.Λ.dr) (i := i) le_rfl
      have e : (1 ≤ i ∧ i < P.Λ.dr) ↔ 1 ≤ i := by omega
      simp only [e] at h3
      rw [← h3, ← e2]
      refine sum_congr rfl fun r hr => ?_
      simp [element, hk, b1 r (mem_range.mp hr), hcf, hdz]
  · have hin : P.Λ.InRange 2 i j l := (P.inRange_iff hs).mpr ⟨by simp [Dims.shape, hk],
      by simpa [Dims.cshape, Dims.shape, hk] using hi, hj, by rw [hz2]; exact hl⟩
    obtain ⟨hcf, hcf2⟩ := P.col_flat hs hin
    rw [hz2] at hcf hcf2
    rw [coef_eq hs.k hin, P.transpose_mulVec, P.sum_blocks]
    have h0 : ∑ r ∈ range P.n1, P.element r (P.Λ.ravelIndex 2 i j l) * ext0 u r = 0 := by
      apply sum_eq_zero
      intro r hr
      simp [element, hk, b0 r (mem_range.mp hr), hcf]
    have h1 : ∑ r ∈ range P.n2, P.element (P.n1 + r) (P.Λ.ravelIndex 2 i j l) * ext0 u (P.n1 + r) = 0 := by
      apply sum_eq_zero
      intro r hr
      rw [mem_range] at hr
      simp [element, hk, b1 r hr, hcf]
    rw [h0, h1, zero_add, zero_add]
    have h3 := sum_threeform (nr := P.Λ.dr) (by omega) hj hl (fun m => ext0 u (P.n1 + P.n2 + m)) (d := P.Λ.dr) (i := i) le_rfl
    have e : (1 ≤ i ∧ i < P.Λ.dr) ↔ 1 ≤ i := by omega
    simp only [e] at h3
    rw [← h3, ← e3]
    refine sum_congr rfl fun r hr => ?_
    simp [element, hk, b2 r (mem_range.mp hr), hcf, hs.dt]

end
end PolarOp
end Mrx
