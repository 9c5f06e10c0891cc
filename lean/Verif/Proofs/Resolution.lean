import Verif.Props.Drum
import Verif.Props.Mappings
import Verif.Props.Mappings2

/-! # The innermost quadrature points -/

set_option linter.unusedVariables false
set_option linter.unusedSectionVars false

namespace Mrx
open Finset Jax Spec Matrix Quad Props

/-- The smallest node of the Gauss tables. -/
def firstNode (q : Nat) : Rat := (nodesAndWeights q).1.headD 0

theorem table_first : ∀ n ∈ List.range 11, 1 ≤ n → firstNode n ∈ (nodesAndWeights n).1 ∧ (∀ x ∈ (nodesAndWeights n).1, firstNode n ≤ x) ∧
    -9740/10000 ≤ firstNode n ∧ firstNode n ≤ 0 := by decide +kernel

section
variable {K : Type*} [Field K] [LinearOrder K] [IsStrictOrderedRing K]

theorem composite_first {m k : Nat} (hm : 1 ≤ m) (h1 : 1 ≤ k) (h2 : k ≤ 10) :
    (((firstNode k : K) + 1) / (2 * m) ∈ (compositeQuad (linspace01 K (m + 1)) k).1) ∧
    ∀ x ∈ (compositeQuad (linspace01 K (m + 1)) k).1, ((firstNode k : K) + 1) / (2 * m) ≤ x := by
  obtain ⟨t1, t2, t3, -⟩ := table_first k (List.mem_range.mpr (by omega)) h1
  obtain ⟨l1, l2, hin, hw, _⟩ := table_nodes k (List.mem_range.mpr (by omega)) h1
  have hm' : (0 : K) < (m : K) := by exact_mod_cast (by omega : 0 < m)
  rw [compositeQuad_eq]
  have hz : ∀ e : K × K, e ∈ (linspace01 K (m + 1)).zip (linspace01 K (m + 1)).tail ↔ ∃ i < m, e = ((i : K) / m, ((i + 1 : Nat) : K) / m) := by
    intro e
    rw [List.mem_iff_getElem]
    constructor
    · rintro ⟨i, hi, rfl⟩
      have hi' : i < m := by simp [length_linspace01] at hi; omega
      refine ⟨i, hi', ?_⟩
      simp [getElem_linspace01]
    · rintro ⟨i, hi, rfl⟩
      refine ⟨i, by simp [length_linspace01]; omega, ?_⟩
      simp [getElem_linspace01]
  constructor
  · simp only [List.mem_flatMap]
    refine ⟨(((0 : Nat) : K) / m, ((0 + 1 : Nat) : K) / m), (hz _).mpr ⟨0, by omega, rfl⟩, ?_⟩
    simp only [rescale, List.mem_map]
    refine ⟨_, t1, ?_⟩
    simp
    field_simp
  · intro x hx
    simp only [List.mem_flatMap] at hx
    obtain ⟨e, he, hx⟩ := hx
    obtain ⟨i, hi, rfl⟩ := (hz e).mp he
    simp only [rescale, List.mem_map] at hx
    obtain ⟨ξ, hξ, rfl⟩ := hx
    have a : (firstNode k : K) ≤ (ξ : K) := by exact_mod_cast t2 ξ hξ
    have b : (0 : K) ≤ (i : K) / m := by positivity
    have c : ((i + 1 : Nat) : K) / m - (i : K) / m = 1 / m := by push_cast; field_simp; ring
    rw [c]
    have d : ((firstNode k : K) + 1) / (2 * m) = ((firstNode k : K) + 1) / 2 * (1 / m) := by field_simp
    rw [d]
    have : ((firstNode k : K) + 1) / 2 * (1 / m) ≤ ((ξ : K) + 1) / 2 * (1 / m) := by
      have : (0 : K) ≤ 1 / m := by positivity
      gcongr
    linarith

end

/-- The distance of the innermost quadrature points from the axis, in the logical coordinate: `m` elements, `q` points in each. -/
noncomputable def innermost (m q : Nat) : ℝ := ((firstNode q : ℝ) + 1) / (2 * m)

theorem innermost_bounds {m q : Nat} (hm : 1 ≤ m) (h1 : 1 ≤ q) (h2 : q ≤ 10) : 1 / (77 * m) ≤ innermost m q ∧ innermost m q ≤ 1 / (2 * m) := by
  obtain ⟨t1, t2, t3, t4⟩ := table_first q (List.mem_range.mpr (by omega)) h1
  have hm' : (0 : ℝ) < (m : ℝ) := by exact_mod_cast (by omega : 0 < m)
  have a : ((-9740/10000 : Rat) : ℝ) ≤ (firstNode q : ℝ) := by exact_mod_cast t3
  have b : (firstNode q : ℝ) ≤ 0 := by exact_mod_cast t4
  push_cast at a
  unfold innermost
  constructor
  · rw [div_le_div_iff₀ (by positivity) (by positivity)]
    nlinarith
  · rw [div_le_div_iff₀ (by positivity) (by positivity)]
    nlinarith

theorem select_nonempty {n p q : Nat} {ty : String} (h : DirOK n p q ty) (hq : q ≤ 10) {s : SplineBasis ℝ} (hs : SplineBasis.mk? n p ty = .ok s)
    {xw : List ℝ × List ℝ} (hsel : selectQuadrature s q = .ok xw) : ∃ x, x ∈ xw.1 := by
  rcases h with ⟨rfl, a, b, c, e⟩ | ⟨rfl, a, b, c, d, e⟩ | ⟨rfl, rfl, _⟩
  · obtain ⟨xs, ws, e1, _, l1, _⟩ := C11_select_rule n p a "clamped" (n - p) (Or.inl ⟨rfl, b, rfl⟩) s hs q (by omega) hq
    rw [hsel] at e1
    obtain rfl := Except.ok.inj e1
    refine ⟨xs[0]'?_, List.getElem_mem _⟩
    simp only [l1]
    exact Nat.mul_pos (by omega) (by omega)
  · obtain ⟨xs, ws, e1, _, l1, _⟩ := C11_select_rule n p a "periodic" n (Or.inr ⟨rfl, c, b, rfl⟩) s hs q (by omega) hq
    rw [hsel] at e1
    obtain rfl := Except.ok.inj e1
    refine ⟨xs[0]'?_, List.getElem_mem _⟩
    simp only [l1]
    exact Nat.mul_pos (by omega) (by omega)
  · obtain ⟨hn, hp, hty⟩ := Form.spline_mk?_ok hs
    unfold selectQuadrature spectralQuad at hsel
    rw [hty] at hsel
    simp only [show ¬ ("constant" = "clamped") by decide, show ¬ ("constant" = "periodic") by decide,
      show ¬ ("constant" = "fourier") by decide, if_false, show (1 ≤ 1 ∧ 1 ≤ 10) by decide, and_self, if_true] at hsel
    obtain rfl := Except.ok.inj hsel
    exact ⟨(2 : ℝ)⁻¹, by simp [nodesAndWeights, gauss1Nodes]⟩

/-- The radial positions of the quadrature points. -/
theorem radial_points {ns ps : Nat × Nat × Nat} {q : Nat} {types : String × String × String} {S : Seq ℝ} (hS : Seq.mk? ns ps q types = .ok S)
    (hq : q ≤ 10) (hr : DirOK ns.1 ps.1 q "clamped") (ht : DirOK ns.2.1 ps.2.1 q types.2.1) (hz : DirOK ns.2.2 ps.2.2 q types.2.2)
    (h0 : types.1 = "clamped") :
    (∃ x ∈ S.Q.x, x.1 = innermost (ns.1 - ps.1) q) ∧ ∀ x ∈ S.Q.x, innermost (ns.1 - ps.1) q ≤ x.1 ∧ x.1 < 1 := by
  obtain ⟨m0, _, _, _, hQ⟩ := Seq.mk?_inv hS
  obtain ⟨_, _, s0, s1, s2, _⟩ := Form.mk?_inv m0
  have htens := Seq.rule_isTensor hQ
  unfold Quad.Rule.mk? at hQ
  split at hQ
  case h_2 => cases hQ
  rename_i rx ry rz hx' hy' hz'
  have hQ' := Except.ok.inj hQ
  have exx : S.Q.xx = rx.1 := by rw [← hQ']; rfl
  have exy : S.Q.xy = ry.1 := by rw [← hQ']; rfl
  have exz : S.Q.xz = rz.1 := by rw [← hQ']; rfl
  obtain ⟨y0, hy0⟩ := select_nonempty ht hq s1 hy'
  obtain ⟨z0, hz0⟩ := select_nonempty hz hq s2 hz'
  rw [h0] at s0
  rcases hr with ⟨_, a, b, c, e⟩ | ⟨e, _⟩ | ⟨e, _⟩
  rotate_left
  · exact absurd e (by decide)
  · exact absurd e (by decide)
  obtain ⟨xs, ws, g1, g2, _, _, g3, _⟩ := C11_select_rule ns.1 ps.1 a "clamped" _ (Or.inl ⟨rfl, b, rfl⟩) _ s0 q (by omega) hq
  rw [g1] at hx'
  have hrx := Except.ok.inj hx'
  have hxs : xs = (compositeQuad (linspace01 ℝ (ns.1 - ps.1 + 1)) q).1 := congrArg Prod.fst g2
  obtain ⟨c1, c2⟩ := composite_first (K := ℝ) (m := ns.1 - ps.1) (k := q) (by omega) (by omega) hq
  rw [← hxs] at c1 c2
  rw [htens, exx, exy, exz, ← hrx]
  constructor
  · refine ⟨(innermost (ns.1 - ps.1) q, y0, z0), ?_, rfl⟩
    simp only [List.mem_flatMap, List.mem_map]
    exact ⟨y0, hy0, _, c1, z0, hz0, rfl⟩
  · intro x hx
    simp only [List.mem_flatMap, List.mem_map] at hx
    obtain ⟨y, hy, r, hr', z, hz, rfl⟩ := hx
    exact ⟨c2 r hr', (g3 r hr').2⟩

end Mrx
