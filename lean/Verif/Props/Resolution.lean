import Verif.Proofs.Resolution
import Verif.Props.ExactIff3

/-!
# C105: on the maps of the library, which resolutions keep the metric away from the cutoff of `inv33`

All other theorems about assembled matrices assume that the Jacobian determinant is at least `1e-5` at the quadrature points (below that the stored inverse metric is zero, C25). On
the maps of the library the determinant vanishes on the axis, so this is an assumption on the innermost quadrature points, which come closer to the axis the finer the mesh is. Here
it is decided.
-/

set_option linter.unusedVariables false
set_option linter.unusedSectionVars false

namespace Mrx.Props
open Mrx Spec Matrix DeRham Real

/-- Numbers of splines, degrees, types and quadrature points for which the theory holds, the map aside: what `Admissible` asks for except the regularity of the map, and a clamped radial direction. -/
structure Sizes (ns ps : Nat × Nat × Nat) (q : Nat) (types : String × String × String) (polar : Bool) : Prop where
  q10 : q ≤ 10
  clamped : types.1 = "clamped"
  r : DirOK ns.1 ps.1 q types.1
  t : DirOK ns.2.1 ps.2.1 q types.2.1
  z : DirOK ns.2.2 ps.2.2 q types.2.2
  polar : polar = true → types.1 = "clamped" ∧ types.2.1 = "periodic" ∧ types.2.2 ≠ "clamped" ∧ 3 ≤ ns.1 ∧ 3 ≤ ns.2.1

section
variable {ns ps : Nat × Nat × Nat} {q : Nat} {types : String × String × String} {F : V3 → V3} {polar dirichlet : Bool} {D : DeRham}

theorem Sizes.built (h : Sizes ns ps q types polar) (F : V3 → V3) (dirichlet : Bool) : ∃ D, DeRham.mk? ns ps q types F polar dirichlet = .ok D := by
  obtain ⟨S, hS⟩ := Seq.build h.r h.t h.z
  unfold DeRham.mk?
  rw [hS]
  exact ⟨_, rfl⟩

theorem Sizes.m (h : Sizes ns ps q types polar) : 1 ≤ ns.1 - ps.1 ∧ 1 ≤ q := by
  have := h.r
  rw [h.clamped] at this
  rcases this with ⟨_, a, b, c, e⟩ | ⟨e, _⟩ | ⟨e, _⟩
  · omega
  · exact absurd e (by decide)
  · exact absurd e (by decide)

/-- **C105** the innermost quadrature points are at `r = (1 + ξ) / (2 (n - p))`, where `ξ` is the smallest node of the rule and `n - p` the number of radial elements. This is at
least `1 / (77 (n - p))` for all rules the library has, and at most `1 / (2 (n - p))`. -/
theorem C105_innermost (h : Sizes ns ps q types polar) (hb : DeRham.mk? ns ps q types F polar dirichlet = .ok D) :
    (∃ x ∈ D.S.Q.x, x.1 = innermost (ns.1 - ps.1) q) ∧ (∀ x ∈ D.S.Q.x, innermost (ns.1 - ps.1) q ≤ x.1 ∧ x.1 < 1) ∧
    1 / (77 * ((ns.1 - ps.1 : Nat) : ℝ)) ≤ innermost (ns.1 - ps.1) q ∧ innermost (ns.1 - ps.1) q ≤ 1 / (2 * ((ns.1 - ps.1 : Nat) : ℝ)) := by
  have hr := h.r
  rw [h.clamped] at hr
  have a := radial_points (Admissible.seq hb) h.q10 hr h.t h.z h.clamped
  exact ⟨a.1, a.2, innermost_bounds h.m.1 h.m.2 h.q10⟩

/-- **C105** what is at stake: for a map with a positive Jacobian determinant at the quadrature points, the sequence is admissible exactly when the stored inverse metric is the inverse of the
stored metric at all of them. -/
theorem C105_admissible_iff (h : Sizes ns ps q types polar) (hb : DeRham.mk? ns ps q types F polar dirichlet = .ok D)
    (hJ : ∀ x ∈ D.S.Q.x, 0 < jacobianDeterminant F (toV3 x)) :
    Admissible ns ps q types F polar dirichlet D ↔ ∀ j < D.S.Q.x.length, D.g.G j * D.g.Ginv j = 1 := by
  have eg := (Admissible.metric hb).1
  have pt : ∀ (j : Nat) (hj : j < D.S.Q.x.length), (D.S.Q.x.map toV3)[j]? = some (toV3 (D.S.Q.x[j]'hj)) := fun j hj => by
    rw [List.getElem?_map, List.getElem?_eq_getElem hj]; rfl
  constructor
  · intro ha j hj
    rw [eg, C25_inverse_metric_iff F _ j _ (pt j hj), abs_of_pos (hJ _ (List.getElem_mem _))]
    exact ha.regular _ (List.getElem_mem _)
  · intro hg
    refine ⟨hb, h.q10, h.r, h.t, h.z, h.polar, fun x hx => ?_⟩
    obtain ⟨j, hj, rfl⟩ := List.mem_iff_getElem.mp hx
    have := hg j hj
    rw [eg, C25_inverse_metric_iff F _ j _ (pt j hj), abs_of_pos (hJ _ (List.getElem_mem _))] at this
    exact this

/-- A determinant that is `c r` times something between two positive numbers. -/
theorem admissible_of_lower (h : Sizes ns ps q types polar) (hb : DeRham.mk? ns ps q types F polar dirichlet = .ok D) {c : ℝ} (hc : 0 ≤ c)
    (hJ : ∀ x : V3, 0 < x 0 → x 0 ≤ 1 → c * x 0 ≤ jacobianDeterminant F x) (hle : 1e-5 ≤ c * innermost (ns.1 - ps.1) q) :
    Admissible ns ps q types F polar dirichlet D := by
  obtain ⟨-, a, b, -⟩ := C105_innermost h hb
  refine ⟨hb, h.q10, h.r, h.t, h.z, h.polar, fun x hx => ?_⟩
  obtain ⟨a1, a2⟩ := a x hx
  have pos : (0 : ℝ) < innermost (ns.1 - ps.1) q := lt_of_lt_of_le (by
    have := h.m.1
    have : (0 : ℝ) < ((ns.1 - ps.1 : Nat) : ℝ) := by exact_mod_cast this
    positivity) b
  have := hJ (toV3 x) (lt_of_lt_of_le pos a1) a2.le
  have : c * innermost (ns.1 - ps.1) q ≤ c * x.1 := by gcongr
  exact le_trans hle (le_trans this (hJ (toV3 x) (lt_of_lt_of_le pos a1) a2.le))

theorem admissible_iff_of_eq (h : Sizes ns ps q types polar) (hb : DeRham.mk? ns ps q types F polar dirichlet = .ok D) {c : ℝ} (hc : 0 ≤ c)
    (hJ : ∀ x : V3, jacobianDeterminant F x = c * x 0) :
    Admissible ns ps q types F polar dirichlet D ↔ 1e-5 ≤ c * innermost (ns.1 - ps.1) q := by
  constructor
  · intro ha
    obtain ⟨⟨x, hx, e⟩, -⟩ := C105_innermost h hb
    have := ha.regular x hx
    rw [hJ] at this
    change 1e-5 ≤ c * x.1 at this
    rwa [e] at this
  · exact admissible_of_lower h hb hc fun x _ _ => (hJ x).ge

/-- **C105** `polar_map`: exactly when the innermost points are at least `1e-5 / (2π)` from the axis. -/
theorem C105_polar_map_iff (h : Sizes ns ps q types polar) (hb : DeRham.mk? ns ps q types polarMap polar dirichlet = .ok D) :
    Admissible ns ps q types polarMap polar dirichlet D ↔ 1e-5 ≤ 2 * π * innermost (ns.1 - ps.1) q :=
  admissible_iff_of_eq h hb (by positivity) C63_polar_jacobian

/-- **C105** `cylinder_map`: exactly when the innermost points are at least `1e-5 / (2π a² h)` from the axis. -/
theorem C105_cylinder_map_iff {a hh : ℝ} (hh0 : 0 ≤ hh) (h : Sizes ns ps q types polar)
    (hb : DeRham.mk? ns ps q types (cylinderMap a hh) polar dirichlet = .ok D) :
    Admissible ns ps q types (cylinderMap a hh) polar dirichlet D ↔ 1e-5 ≤ 2 * π * a ^ 2 * hh * innermost (ns.1 - ps.1) q :=
  admissible_iff_of_eq h hb (by positivity) (C63_cylinder_jacobian a hh)

/-- **C105** `toroid_map`: if the innermost points are at least `1e-5 / ((2π)² ε² κ (R0 - ε))` from the axis, and only if they are at least `1e-5 / ((2π)² ε² κ (R0 + ε))` from it. -/
theorem C105_toroid_map {ε κ R0 : ℝ} (hε : 0 < ε) (hκ : 0 < κ) (hR : ε < R0) (h : Sizes ns ps q types polar)
    (hb : DeRham.mk? ns ps q types (toroidMap ε κ R0) polar dirichlet = .ok D) :
    (1e-5 ≤ (2 * π) ^ 2 * ε ^ 2 * κ * (R0 - ε) * innermost (ns.1 - ps.1) q → Admissible ns ps q types (toroidMap ε κ R0) polar dirichlet D) ∧
    (Admissible ns ps q types (toroidMap ε κ R0) polar dirichlet D → 1e-5 ≤ (2 * π) ^ 2 * ε ^ 2 * κ * (R0 + ε) * innermost (ns.1 - ps.1) q) := by
  have hc := fun t : ℝ => neg_one_le_cos t
  have hc' := fun t : ℝ => cos_le_one t
  constructor
  · refine admissible_of_lower h hb (by have := sub_pos.2 hR; positivity) fun x h0 h1 => ?_
    rw [C59_jacobian]
    have : R0 - ε ≤ R0 + ε * x 0 * cos (2 * π * x 1) := by
      have := hc (2 * π * x 1)
      have : 0 ≤ ε * x 0 := by positivity
      nlinarith
    have p : 0 ≤ (2 * π) ^ 2 * ε ^ 2 * κ * x 0 := by positivity
    nlinarith [mul_le_mul_of_nonneg_left this p]
  · intro ha
    obtain ⟨⟨x, hx, e⟩, hin, -⟩ := C105_innermost h hb
    have r := ha.regular x hx
    rw [C59_jacobian] at r
    change 1e-5 ≤ (2 * π) ^ 2 * ε ^ 2 * κ * x.1 * (R0 + ε * x.1 * cos (2 * π * x.2.1)) at r
    have hx1 := (hin x hx).2
    have pos : 0 ≤ x.1 := by
      by_contra hneg
      have hneg := not_le.mp hneg
      have hlow := (innermost_bounds h.m.1 h.m.2 h.q10).1
      rw [← e] at hlow
      have : (0 : ℝ) ≤ 1 / (77 * ((ns.1 - ps.1 : Nat) : ℝ)) := by positivity
      linarith
    rw [← e]
    refine le_trans r ?_
    have : R0 + ε * x.1 * cos (2 * π * x.2.1) ≤ R0 + ε := by
      have := hc' (2 * π * x.2.1)
      have : ε * x.1 * cos (2 * π * x.2.1) ≤ ε * x.1 * 1 := by gcongr
      nlinarith
    have p : 0 ≤ (2 * π) ^ 2 * ε ^ 2 * κ * x.1 := by positivity
    nlinarith [mul_le_mul_of_nonneg_left this p]

theorem cerfon_factor {α : ℝ} (hα : |α| ≤ 1) (B : ℝ) :
    1 / 4 ≤ cos (B + α * sin B) * cos B + (1 + α * cos B) * (sin (B + α * sin B) * sin B) := by
  have hα' := abs_le.mp hα
  rw [cos_add, sin_add]
  generalize hs : sin B = s
  generalize hc : cos B = c
  have h1 : s ^ 2 + c ^ 2 = 1 := by rw [← hs, ← hc]; exact sin_sq_add_cos_sq B
  have hs1 : |s| ≤ 1 := by rw [← hs]; exact abs_sin_le_one B
  have has : |α * s| ≤ 1 := by rw [abs_mul]; exact mul_le_one₀ hα (abs_nonneg _) hs1
  have e : (c * cos (α * s) - s * sin (α * s)) * c + (1 + α * c) * ((s * cos (α * s) + c * sin (α * s)) * s)
      = cos (α * s) * (s ^ 2 + c ^ 2 + α * c * s ^ 2) + c ^ 2 * ((α * s) * sin (α * s)) := by ring
  rw [e, h1]
  have k1 : 1 / 2 ≤ cos (α * s) := by
    have := one_sub_sq_div_two_le_cos (x := α * s)
    have : (α * s) ^ 2 ≤ 1 := by rw [← sq_abs]; exact pow_le_one₀ (abs_nonneg _) has
    linarith
  have k2 : 0 ≤ (α * s) * sin (α * s) := by
    have ha := abs_le.mp has
    rcases le_total 0 (α * s) with h | h
    · exact mul_nonneg h (sin_nonneg_of_nonneg_of_le_pi h (by linarith [pi_gt_three]))
    · exact mul_nonneg_of_nonpos_of_nonpos h (sin_nonpos_of_nonpos_of_neg_pi_le h (by linarith [pi_gt_three]))
  have k3 : 1 / 2 ≤ 1 + α * c * s ^ 2 := by
    have hs2 : s ^ 2 = 1 - c ^ 2 := by linarith
    have hcs : c ^ 2 * s ^ 2 * s ^ 2 ≤ 1 / 4 := by
      rw [hs2]
      have : c ^ 2 ≤ 1 := by nlinarith [sq_nonneg s]
      nlinarith [sq_nonneg (c ^ 2 - 1 / 2), sq_nonneg (c ^ 2), sq_nonneg (c^2 - 1/3), mul_nonneg (sq_nonneg c) (sub_nonneg.2 this)]
    have hab : |α * c * s ^ 2| ≤ 1 / 2 := by
      refine abs_le_of_sq_le_sq ?_ (by norm_num)
      have e2 : (α * c * s ^ 2) ^ 2 = α ^ 2 * (c ^ 2 * s ^ 2 * s ^ 2) := by ring
      have a2 : α ^ 2 ≤ 1 := by rw [← sq_abs]; exact pow_le_one₀ (abs_nonneg _) hα
      have n2 : 0 ≤ c ^ 2 * s ^ 2 * s ^ 2 := by positivity
      rw [e2]
      nlinarith
    linarith [(abs_le.mp hab).1]
  nlinarith [mul_nonneg (sq_nonneg c) k2]

/-- **C105** `cerfon_map` with `|α| ≤ 1`: if the innermost points are at least `4e-5 / ((2π)² ε² κ (R0 - |ε|))` from the axis. -/
theorem C105_cerfon_map {ε κ α R0 : ℝ} (hκ : 0 ≤ κ) (hα : |α| ≤ 1) (hR : |ε| ≤ R0) (h : Sizes ns ps q types polar)
    (hb : DeRham.mk? ns ps q types (cerfonMap ε κ α R0) polar dirichlet = .ok D)
    (hle : 4e-5 ≤ (2 * π) ^ 2 * ε ^ 2 * κ * (R0 - |ε|) * innermost (ns.1 - ps.1) q) : Admissible ns ps q types (cerfonMap ε κ α R0) polar dirichlet D := by
  have hR' := sub_nonneg.2 hR
  refine admissible_of_lower h hb (c := (2 * π) ^ 2 * ε ^ 2 * κ * (R0 - |ε|) / 4) (by positivity) (fun x h0 h1 => ?_) (by linarith)
  rw [C61_jacobian]
  have f := cerfon_factor hα (2 * π * x 1)
  generalize cos (2 * π * x 1 + α * sin (2 * π * x 1)) * cos (2 * π * x 1)
    + (1 + α * cos (2 * π * x 1)) * (sin (2 * π * x 1 + α * sin (2 * π * x 1)) * sin (2 * π * x 1)) = f' at f
  have hc := neg_one_le_cos (2 * π * x 1 + α * sin (2 * π * x 1))
  generalize cos (2 * π * x 1 + α * sin (2 * π * x 1)) = c at hc
  have g : R0 - |ε| ≤ R0 + x 0 * |ε| * c := by
    have : 0 ≤ x 0 * |ε| := by positivity
    nlinarith [abs_nonneg ε]
  have p : 0 ≤ (2 * π) ^ 2 * ε ^ 2 * κ * x 0 := by positivity
  calc (2 * π) ^ 2 * ε ^ 2 * κ * (R0 - |ε|) / 4 * x 0 = (2 * π) ^ 2 * ε ^ 2 * κ * x 0 * (R0 - |ε|) * (1 / 4) := by ring
    _ ≤ (2 * π) ^ 2 * ε ^ 2 * κ * x 0 * (R0 + x 0 * |ε| * c) * f' := by
        gcongr
        exact mul_nonneg p (le_trans hR' g)

/-- **C105** `rotating_ellipse_map` with elongation between 0 and 2: if the innermost points are at least
`1e-5 nfp / ((2π)² eps² (1 - eps (1 + |1 - κ|)) (1 - (1 - κ)²))` from the axis. -/
theorem C105_rotating_ellipse_map {eps κ : ℝ} {nfp : Int} {F : V3 → V3} (hF : rotatingEllipseMap eps κ nfp = .ok F) (hκ : 0 ≤ κ) (hκ2 : κ ≤ 2)
    (hR : eps * (1 + |1 - κ|) ≤ 1) (h : Sizes ns ps q types polar) (hb : DeRham.mk? ns ps q types F polar dirichlet = .ok D)
    (hle : 1e-5 ≤ (2 * π) ^ 2 / nfp * eps ^ 2 * (1 - eps * (1 + |1 - κ|)) * (1 - (1 - κ) ^ 2) * innermost (ns.1 - ps.1) q) :
    Admissible ns ps q types F polar dirichlet D := by
  have hpos : 0 < nfp ∧ 0 < eps := by
    by_contra hcon
    obtain ⟨m, hm⟩ := (C62_raises eps κ nfp).mpr (by
      by_contra hc
      push Not at hc
      exact hcon hc)
    rw [hF] at hm; cases hm
  obtain ⟨hn, he⟩ := hpos
  have hn' : (0 : ℝ) < (nfp : ℝ) := by exact_mod_cast hn
  have hR' := sub_nonneg.2 hR
  have hk : 0 ≤ 1 - (1 - κ) ^ 2 := by nlinarith
  refine admissible_of_lower h hb (by positivity) (fun x h0 h1 => ?_) hle
  rw [C62_jacobian hF]
  have c1 := abs_cos_le_one (2 * π * x 2)
  have c2 := abs_cos_le_one (2 * π * x 1)
  generalize cos (2 * π * x 2) = c at c1
  generalize cos (2 * π * x 1) = d at c2
  have g2 : 1 - (1 - κ) ^ 2 ≤ 1 - (1 - κ) ^ 2 * c ^ 2 := by
    have : c ^ 2 ≤ 1 := by rw [← sq_abs]; exact pow_le_one₀ (abs_nonneg _) c1
    nlinarith [sq_nonneg (1 - κ)]
  have g1 : 1 - eps * (1 + |1 - κ|) ≤ 1 + eps * (1 + (1 - κ) * c) * x 0 * d := by
    have b1 : |1 + (1 - κ) * c| ≤ 1 + |1 - κ| := by
      refine le_trans (abs_add_le _ _) ?_
      rw [abs_one, abs_mul]
      nlinarith [abs_nonneg (1 - κ)]
    have b2 : |eps * (1 + (1 - κ) * c) * x 0 * d| ≤ eps * (1 + |1 - κ|) := by
      rw [abs_mul, abs_mul, abs_mul, abs_of_pos he, abs_of_pos h0]
      have : eps * |1 + (1 - κ) * c| * x 0 * |d| ≤ eps * |1 + (1 - κ) * c| * 1 * 1 := by gcongr
      have : eps * |1 + (1 - κ) * c| ≤ eps * (1 + |1 - κ|) := by gcongr
      linarith
    linarith [(abs_le.mp b2).1]
  calc (2 * π) ^ 2 / nfp * eps ^ 2 * (1 - eps * (1 + |1 - κ|)) * (1 - (1 - κ) ^ 2) * x 0
      = (2 * π) ^ 2 / nfp * eps ^ 2 * x 0 * (1 - eps * (1 + |1 - κ|)) * (1 - (1 - κ) ^ 2) := by ring
    _ ≤ (2 * π) ^ 2 / nfp * eps ^ 2 * x 0 * (1 + eps * (1 + (1 - κ) * c) * x 0 * d) * (1 - (1 - κ) ^ 2 * c ^ 2) := by
        gcongr
        exact mul_nonneg (by positivity) (by linarith)

/-- **C105** in plain numbers: with at most 8000 radial elements, on the disc and on the unit cylinder, for every rule. -/
theorem C105_8000_elements (hm : ns.1 - ps.1 ≤ 8000) (h : Sizes ns ps q types polar) :
    (∃ D, Admissible ns ps q types polarMap polar dirichlet D) ∧ ∃ D, Admissible ns ps q types (cylinderMap 1 1) polar dirichlet D := by
  have b := (innermost_bounds h.m.1 h.m.2 h.q10).1
  have hm' : ((ns.1 - ps.1 : Nat) : ℝ) ≤ 8000 := by exact_mod_cast hm
  have hm1 : (1 : ℝ) ≤ ((ns.1 - ps.1 : Nat) : ℝ) := by exact_mod_cast h.m.1
  have k : 1 / (77 * 8000 : ℝ) ≤ innermost (ns.1 - ps.1) q := le_trans (by gcongr) b
  have key : 1e-5 ≤ 2 * π * innermost (ns.1 - ps.1) q := by
    have : 2 * 3.141592 * (1 / (77 * 8000)) ≤ 2 * π * innermost (ns.1 - ps.1) q := by
      gcongr
      exact pi_gt_d6.le
    refine le_trans ?_ this
    norm_num
  obtain ⟨D, hD⟩ := h.built polarMap dirichlet
  obtain ⟨D', hD'⟩ := h.built (cylinderMap 1 1) dirichlet
  refine ⟨⟨D, (C105_polar_map_iff h hD).mpr key⟩, ⟨D', (C105_cylinder_map_iff zero_le_one h hD').mpr ?_⟩⟩
  linarith

/-- **C105** beyond: when the innermost points come closer to the axis than that, the inverse metric of the disc is stored as zero at one of them, although the determinant is positive
everywhere, so that the assertion `min(J_j) > 0` of the scripts passes. -/
theorem C105_too_fine (h : Sizes ns ps q types polar) (hb : DeRham.mk? ns ps q types polarMap polar dirichlet = .ok D) (hlt : 2 * π * innermost (ns.1 - ps.1) q < 1e-5) :
    (∀ x ∈ D.S.Q.x, 0 < jacobianDeterminant polarMap (toV3 x)) ∧ ∃ j < D.S.Q.x.length, D.g.Ginv j = 0 := by
  obtain ⟨⟨x, hx, e⟩, hin, hlow, -⟩ := C105_innermost h hb
  have pos : ∀ y ∈ D.S.Q.x, 0 < y.1 := fun y hy => by
    have hm1 : (1 : ℝ) ≤ ((ns.1 - ps.1 : Nat) : ℝ) := by exact_mod_cast h.m.1
    exact lt_of_lt_of_le (by positivity) (le_trans hlow (hin y hy).1)
  have hJ : ∀ y ∈ D.S.Q.x, 0 < jacobianDeterminant polarMap (toV3 y) := fun y hy => by
    rw [C63_polar_jacobian]
    have := pos y hy
    change 0 < 2 * π * y.1
    positivity
  refine ⟨hJ, ?_⟩
  obtain ⟨j, hj, rfl⟩ := List.mem_iff_getElem.mp hx
  refine ⟨j, hj, ?_⟩
  rw [(Admissible.metric hb).1]
  refine C25_inverse_metric_zero_for_small_jacobian polarMap _ j (toV3 D.S.Q.x[j]) (by rw [List.getElem?_map, List.getElem?_eq_getElem hj]; rfl) ?_
  rw [abs_of_pos (hJ _ hx), C63_polar_jacobian]
  change 2 * π * D.S.Q.x[j].1 < 1e-5
  rwa [e]


/-- Case: 20000 radial elements, 8 points in each. -/
example : ∃ D, DeRham.mk? (20003, 8, 1) (3, 3, 0) 8 ("clamped", "periodic", "constant") polarMap true true = .ok D ∧
    (∀ x ∈ D.S.Q.x, 0 < jacobianDeterminant polarMap (toV3 x)) ∧ ∃ j < D.S.Q.x.length, D.g.Ginv j = 0 := by
  have h : Sizes (20003, 8, 1) (3, 3, 0) 8 ("clamped", "periodic", "constant") true :=
    ⟨by norm_num, rfl, by unfold DirOK; norm_num, by unfold DirOK; norm_num, by unfold DirOK; norm_num, fun _ => ⟨rfl, rfl, by decide, by norm_num, by norm_num⟩⟩
  obtain ⟨D, hD⟩ := h.built polarMap true
  refine ⟨D, hD, C105_too_fine h hD ?_⟩
  have e : (firstNode 8 : ℝ) ≤ -96/100 := by
    have : firstNode 8 ≤ -96/100 := by decide +kernel
    have : ((firstNode 8 : Rat) : ℝ) ≤ ((-96/100 : Rat) : ℝ) := by exact_mod_cast this
    refine le_trans this ?_
    norm_num
  have k : innermost (20003 - 3) 8 ≤ 1e-6 := by
    unfold innermost
    rw [div_le_iff₀ (by norm_num)]
    norm_num
    linarith
  have k2 : 2 * π * innermost (20003 - 3) 8 ≤ 2 * π * 1e-6 := by gcongr
  have := pi_lt_d2
  change 2 * π * innermost (20003 - 3) 8 < 1e-5
  norm_num at *
  linarith

theorem arcsin_le_one {δ : ℝ} (h0 : 0 ≤ δ) (h1 : δ ≤ 1 / 2) : |arcsin δ| ≤ 1 := by
  rw [abs_of_nonneg (arcsin_nonneg.2 h0)]
  have : arcsin δ ≤ arcsin (1 / 2) := monotone_arcsin h1
  have e : arcsin (1 / 2) = π / 6 := by
    rw [← sin_pi_div_six]
    exact arcsin_sin (by linarith [pi_pos]) (by linarith [pi_pos])
  linarith [pi_le_four]

/-- **C105** the relaxation scripts: with the parameters of the default configuration (`solovev.py`: rotating ellipse), of `stell.py`, of `iter_islands.py`, and of the devices ITER,
NSTX and SPHERO, and with at most 200 radial elements, the sequence is built and admissible. -/
theorem C105_runs (hm : ns.1 - ps.1 ≤ 200) (h : Sizes ns ps q types polar) :
    (∃ F D, rotatingEllipseMap 0.2 1.7 3 = .ok F ∧ Admissible ns ps q types F polar dirichlet D) ∧
    (∃ F D, rotatingEllipseMap 0.33 1.1 3 = .ok F ∧ Admissible ns ps q types F polar dirichlet D) ∧
    (∃ D, Admissible ns ps q types (cerfonMap 0.33 1.7 (arcsin 0.33) 1) polar dirichlet D) ∧
    (∃ D, Admissible ns ps q types (cerfonMap 0.32 1.7 (arcsin 0.33) 1) polar dirichlet D) ∧
    (∃ D, Admissible ns ps q types (cerfonMap 0.78 2.0 (arcsin 0.35) 1) polar dirichlet D) ∧
    (∃ D, Admissible ns ps q types (cerfonMap 0.95 1.0 (arcsin 0.2) 1) polar dirichlet D) := by
  have b := (innermost_bounds h.m.1 h.m.2 h.q10).1
  have hm' : ((ns.1 - ps.1 : Nat) : ℝ) ≤ 200 := by exact_mod_cast hm
  have hm1 : (1 : ℝ) ≤ ((ns.1 - ps.1 : Nat) : ℝ) := by exact_mod_cast h.m.1
  have k : 1 / (77 * 200 : ℝ) ≤ innermost (ns.1 - ps.1) q := le_trans (by gcongr) b
  have p2 : (39 : ℝ) ≤ (2 * π) ^ 2 := by nlinarith [pi_gt_d6]
  have ell : ∀ eps κ : ℝ, 0 < eps → 0 ≤ κ → κ ≤ 2 → eps * (1 + |1 - κ|) ≤ 1 → 3e-5 * (77 * 200) ≤ 39 * eps ^ 2 * (1 - eps * (1 + |1 - κ|)) * (1 - (1 - κ) ^ 2) →
      ∃ F D, rotatingEllipseMap eps κ 3 = .ok F ∧ Admissible ns ps q types F polar dirichlet D := by
    intro eps κ he h0 h2 hR hle
    obtain ⟨F, hF⟩ : ∃ F, rotatingEllipseMap eps κ 3 = .ok F := by
      unfold rotatingEllipseMap
      rw [if_neg (by norm_num), if_neg (not_le.2 he)]
      exact ⟨_, rfl⟩
    obtain ⟨D, hD⟩ := h.built F dirichlet
    refine ⟨F, D, hF, C105_rotating_ellipse_map hF h0 h2 hR h hD ?_⟩
    have hk : 0 ≤ 1 - (1 - κ) ^ 2 := by nlinarith
    have hR' := sub_nonneg.2 hR
    calc (1e-5 : ℝ) ≤ 39 * eps ^ 2 * (1 - eps * (1 + |1 - κ|)) * (1 - (1 - κ) ^ 2) / 3 * (1 / (77 * 200)) := by
          rw [mul_one_div, le_div_iff₀ (by norm_num)]; linarith
      _ = 39 / 3 * eps ^ 2 * (1 - eps * (1 + |1 - κ|)) * (1 - (1 - κ) ^ 2) * (1 / (77 * 200)) := by ring
      _ ≤ (2 * π) ^ 2 / ((3 : Int) : ℝ) * eps ^ 2 * (1 - eps * (1 + |1 - κ|)) * (1 - (1 - κ) ^ 2) * innermost (ns.1 - ps.1) q := by
          push_cast
          gcongr
  have cer : ∀ ε κ δ : ℝ, 0 ≤ ε → 0 ≤ κ → 0 ≤ δ → δ ≤ 1 / 2 → ε ≤ 1 → 4e-5 * (77 * 200) ≤ 39 * ε ^ 2 * κ * (1 - ε) →
      ∃ D, Admissible ns ps q types (cerfonMap ε κ (arcsin δ) 1) polar dirichlet D := by
    intro ε κ δ hε hκ hδ hδ1 hε1 hle
    obtain ⟨D, hD⟩ := h.built (cerfonMap ε κ (arcsin δ) 1) dirichlet
    have hR' := sub_nonneg.2 hε1
    refine ⟨D, C105_cerfon_map hκ (arcsin_le_one hδ hδ1) (by rwa [abs_of_nonneg hε]) h hD ?_⟩
    rw [abs_of_nonneg hε]
    calc (4e-5 : ℝ) ≤ 39 * ε ^ 2 * κ * (1 - ε) * (1 / (77 * 200)) := by
          rw [mul_one_div, le_div_iff₀ (by norm_num)]; linarith
      _ ≤ (2 * π) ^ 2 * ε ^ 2 * κ * (1 - ε) * innermost (ns.1 - ps.1) q := by gcongr
  refine ⟨ell _ _ ?_ ?_ ?_ ?_ ?_, ell _ _ ?_ ?_ ?_ ?_ ?_, cer _ _ _ ?_ ?_ ?_ ?_ ?_ ?_, cer _ _ _ ?_ ?_ ?_ ?_ ?_ ?_, cer _ _ _ ?_ ?_ ?_ ?_ ?_ ?_,
    cer _ _ _ ?_ ?_ ?_ ?_ ?_ ?_⟩ <;> norm_num [abs_of_neg, abs_of_pos]

/-- Case: the default numbers of splines and degrees. -/
example := C105_runs (ns := (8, 8, 6)) (ps := (3, 3, 3)) (q := 3) (types := ("clamped", "periodic", "periodic")) (polar := true) (dirichlet := true) (by norm_num)
  ⟨by norm_num, rfl, by unfold DirOK; norm_num, by unfold DirOK; norm_num, by unfold DirOK; norm_num, fun _ => ⟨rfl, rfl, by decide, by norm_num, by norm_num⟩⟩

end
end Mrx.Props
