import Verif.Props.Polar

/-! # C29, C30: ranks of the extraction operators, compatibility with the exterior derivative -/

set_option linter.unusedSectionVars false

namespace Mrx.Props
open Finset Mrx Spec Matrix

/-! ## C30 on arrays -/

theorem polarForm_extDeriv (d : Dims) (k : Int) (hk : k = 0 ∨ k = 1 ∨ k = 2) (hdk : d.k = k) (nr nt nz dz : Nat)
    (hnr : 3 ≤ nr) (hz : dz ≤ nz) (hz2 : k = 1 ∨ k = 2 → dz = nz)
    (e1 : d.nr = nr) (e2 : d.nt = nt) (e3 : d.nz = nz)
    (dir : Bool) (V : Nat → Nat → Nat → Nat → ℝ) (h : PolarForm k nr nt nz dz dir V) :
    PolarForm (k + 1) nr nt nz dz dir (extDeriv d V) := by
  have r1 : (0 + 1) % nr = 1 := Nat.mod_eq_of_lt (by omega)
  have hang : ∀ j, j < nt → Real.cos (ang nt ((j + 1) % nt)) = Real.cos (ang nt (j + 1)) ∧
      Real.sin (ang nt ((j + 1) % nt)) = Real.sin (ang nt (j + 1)) := fun j hj => ang_mod nt (j + 1) (by omega)
  rcases hk with rfl | rfl | rfl
  · have E0 : ∀ i j l, extDeriv d V 0 i j l = V 0 ((i + 1) % nr) j l - V 0 i j l := by
      intro i j l; simp [extDeriv, hdk, Δr, e1]
    have E1 : ∀ i j l, extDeriv d V 1 i j l = V 0 i ((j + 1) % nt) l - V 0 i j l := by
      intro i j l; simp [extDeriv, hdk, Δt, e2]
    have E2 : ∀ i j l, extDeriv d V 2 i j l = V 0 i j ((l + 1) % nz) - V 0 i j l := by
      intro i j l; simp [extDeriv, hdk, Δz, e3]
    simp only [PolarForm] at h ⊢
    norm_num
    obtain ⟨⟨a, b, c, h01⟩, hd⟩ := h
    refine ⟨⟨⟨b, c, fun j hj l hl => ⟨?_, ?_, ?_⟩⟩, ?_⟩, ⟨⟨fun l => a ((l + 1) % nz) - a l,
      fun l => b ((l + 1) % nz) - b l, fun l => c ((l + 1) % nz) - c l, fun j hj l hl => ⟨?_, ?_⟩⟩, ?_⟩⟩
    · simp only [E0, E1, E2]
      rw [r1, (h01 j hj l hl).1, (h01 j hj l hl).2]; ring
    · simp only [E0, E1, E2]
      rw [(h01 j hj l hl).1, (h01 _ (Nat.mod_lt _ (by omega)) l hl).1]; ring
    · simp only [E0, E1, E2]
      rw [(h01 j hj l hl).2, (h01 _ (Nat.mod_lt _ (by omega)) l hl).2, (hang j hj).1, (hang j hj).2]; ring
    · intro hb j hj l hl
      simp only [E0, E1, E2]
      rw [hd hb j hj l hl, hd hb _ (Nat.mod_lt _ (by omega)) l hl]; ring
    · simp only [E0, E1, E2]
      rw [(h01 j hj l (by omega)).1, (h01 j hj _ (Nat.mod_lt _ (by omega))).1]
    · simp only [E0, E1, E2]
      rw [(h01 j hj l (by omega)).2, (h01 j hj _ (Nat.mod_lt _ (by omega))).2]; ring
    · intro hb j hj l hl
      simp only [E0, E1, E2]
      rw [hd hb j hj l (by omega), hd hb j hj _ (Nat.mod_lt _ (by omega))]; ring
  · obtain rfl := hz2 (Or.inl rfl)
    have E0 : ∀ i j l, extDeriv d V 0 i j l = (V 2 i ((j + 1) % nt) l - V 2 i j l)
        - (V 1 i j ((l + 1) % dz) - V 1 i j l) := by
      intro i j l; simp [extDeriv, hdk, Δt, Δz, e2, e3]
    have E1 : ∀ i j l, extDeriv d V 1 i j l = (V 0 i j ((l + 1) % dz) - V 0 i j l)
        - (V 2 ((i + 1) % nr) j l - V 2 i j l) := by
      intro i j l; simp [extDeriv, hdk, Δr, Δz, e1, e3]
    have E2 : ∀ i j l, extDeriv d V 2 i j l = (V 1 ((i + 1) % nr) j l - V 1 i j l)
        - (V 0 i ((j + 1) % nt) l - V 0 i j l) := by
      intro i j l; simp [extDeriv, hdk, Δr, Δt, e1, e2]
    simp only [PolarForm] at h ⊢
    norm_num at h ⊢
    obtain ⟨⟨⟨b, c, h01⟩, hd⟩, ⟨⟨a', b', c', h01'⟩, hd'⟩⟩ := h
    refine ⟨⟨⟨fun l => b' l - (b ((l + 1) % dz) - b l), fun l => c' l - (c ((l + 1) % dz) - c l),
      fun j hj l hl => ⟨?_, ?_, ?_⟩⟩, ?_⟩, ?_⟩
    · have m1 := Nat.mod_lt (j + 1) (show nt > 0 by omega)
      have m2 := Nat.mod_lt (l + 1) (show dz > 0 by omega)
      simp only [E0, E1, E2]
      rw [(h01' j hj l hl).1, (h01' _ m1 l hl).1, (h01 j hj l hl).2.1, (h01 j hj _ m2).2.1]; ring
    · have m1 := Nat.mod_lt (j + 1) (show nt > 0 by omega)
      have m2 := Nat.mod_lt (l + 1) (show dz > 0 by omega)
      simp only [E0, E1, E2]
      rw [(h01' j hj l hl).2, (h01' _ m1 l hl).2, (h01 j hj l hl).2.2, (h01 j hj _ m2).2.2,
        (hang j hj).1, (hang j hj).2]; ring
    · have m1 := Nat.mod_lt (j + 1) (show nt > 0 by omega)
      have m2 := Nat.mod_lt (l + 1) (show dz > 0 by omega)
      simp only [E0, E1, E2]
      rw [r1, (h01' j hj l hl).2, (h01' j hj l hl).1, (h01 j hj l hl).1, (h01 j hj _ m2).1]; ring
    · intro hb j hj l hl
      have m1 := Nat.mod_lt (j + 1) (show nt > 0 by omega)
      have m2 := Nat.mod_lt (l + 1) (show dz > 0 by omega)
      simp only [E0, E1, E2]
      rw [hd' hb j hj l hl, hd' hb _ m1 l hl, hd hb j hj l hl, hd hb j hj _ m2]; ring
    · intro j hj l hl
      have m1 := Nat.mod_lt (j + 1) (show nt > 0 by omega)
      simp only [E0, E1, E2, r1]
      rw [(h01 j hj l hl).2.2, (h01 j hj l hl).2.1, (h01 j hj l hl).1, (h01 _ m1 l hl).1,
        (hang j hj).1, (hang j hj).2]; ring
  · obtain rfl := hz2 (Or.inr rfl)
    have E0 : ∀ i j l, extDeriv d V 0 i j l = (V 0 ((i + 1) % nr) j l - V 0 i j l)
        + (V 1 i ((j + 1) % nt) l - V 1 i j l) + (V 2 i j ((l + 1) % dz) - V 2 i j l) := by
      intro i j l; simp [extDeriv, hdk, Δr, Δt, Δz, e1, e2, e3]
    simp only [PolarForm] at h ⊢
    norm_num at h ⊢
    obtain ⟨⟨⟨b, c, h01⟩, hd⟩, h3⟩ := h
    intro j hj l hl
    have m1 := Nat.mod_lt (j + 1) (show nt > 0 by omega)
    have m2 := Nat.mod_lt (l + 1) (show dz > 0 by omega)
    simp only [E0, r1]
    rw [(h01 j hj l hl).2.1, (h01 j hj l hl).1, (h01 j hj l hl).2.2, (h01 _ m1 l hl).2.2, h3 j hj l hl, h3 j hj _ m2,
      (hang j hj).1, (hang j hj).2]; ring

theorem polar0_congr' {nr nt nz : Nat} (hnr : 3 ≤ nr) {dir : Bool} {C C' : Nat → Nat → Nat → ℝ}
    (h : ∀ i < nr, ∀ j < nt, ∀ l < nz, C i j l = C' i j l) (hC : Polar0 nr nt nz dir C') : Polar0 nr nt nz dir C := by
  obtain ⟨⟨a, b, c, h0⟩, h1⟩ := hC
  refine ⟨⟨a, b, c, fun j hj l hl => ?_⟩, fun hb j hj l hl => ?_⟩
  · rw [h 0 (by omega) j hj l hl, h 1 (by omega) j hj l hl]; exact h0 j hj l hl
  · rw [h _ (by omega) j hj l hl]; exact h1 hb j hj l hl

/-- Regularity only looks at coefficients in range. -/
theorem polarForm_congr (d : Dims) (hk : d.k = 1 ∨ d.k = 2 ∨ d.k = 3) (hnr : 3 ≤ d.nr) (hdr : d.dr = d.nr - 1)
    (hdt : d.dt = d.nt) (hz : d.k = 2 ∨ d.k = 3 → d.dz = d.nz) (dir : Bool) (V V' : Nat → Nat → Nat → Nat → ℝ)
    (hV : ∀ c i j l, d.InRange c i j l → V c i j l = V' c i j l)
    (h : PolarForm d.k d.nr d.nt d.nz d.dz dir V') : PolarForm d.k d.nr d.nt d.nz d.dz dir V := by
  unfold PolarForm at h ⊢
  rcases hk with hk | hk | hk
  · simp only [hk] at h ⊢
    norm_num at h ⊢
    have c0 : ∀ i < d.dr, ∀ j < d.nt, ∀ l < d.nz, V 0 i j l = V' 0 i j l := fun i hi j hj l hl =>
      hV 0 i j l (by simp [Dims.InRange, Dims.cshape, Dims.shape, hk]; exact ⟨hi, hj, hl⟩)
    have c1 : ∀ i < d.nr, ∀ j < d.nt, ∀ l < d.nz, V 1 i j l = V' 1 i j l := fun i hi j hj l hl =>
      hV 1 i j l (by simp [Dims.InRange, Dims.cshape, Dims.shape, hk]; exact ⟨hi, by omega, hl⟩)
    have c2 : ∀ i < d.nr, ∀ j < d.nt, ∀ l < d.dz, V 2 i j l = V' 2 i j l := fun i hi j hj l hl =>
      hV 2 i j l (by simp [Dims.InRange, Dims.cshape, Dims.shape, hk]; exact ⟨hi, hj, hl⟩)
    obtain ⟨⟨⟨b, c, h0⟩, h1⟩, h2⟩ := h
    refine ⟨⟨⟨b, c, fun j hj l hl => ?_⟩, fun hb j hj l hl => ?_⟩, polar0_congr' hnr c2 h2⟩
    · rw [c0 0 (by omega) j hj l hl, c1 0 (by omega) j hj l hl, c1 1 (by omega) j hj l hl]; exact h0 j hj l hl
    · rw [c1 _ (by omega) j hj l hl]; exact h1 hb j hj l hl
  · have hz := hz (Or.inl hk)
    simp only [hk] at h ⊢
    norm_num at h ⊢
    have c0 : ∀ i < d.nr, ∀ j < d.nt, ∀ l < d.nz, V 0 i j l = V' 0 i j l := fun i hi j hj l hl =>
      hV 0 i j l (by simp [Dims.InRange, Dims.cshape, Dims.shape, hk]; exact ⟨hi, by omega, by omega⟩)
    have c1 : ∀ i < d.dr, ∀ j < d.nt, ∀ l < d.nz, V 1 i j l = V' 1 i j l := fun i hi j hj l hl =>
      hV 1 i j l (by simp [Dims.InRange, Dims.cshape, Dims.shape, hk]; exact ⟨hi, by omega, by omega⟩)
    have c2 : ∀ i < d.dr, ∀ j < d.nt, ∀ l < d.nz, V 2 i j l = V' 2 i j l := fun i hi j hj l hl =>
      hV 2 i j l (by simp [Dims.InRange, Dims.cshape, Dims.shape, hk]; exact ⟨hi, by omega, by omega⟩)
    obtain ⟨⟨⟨b, c, h0⟩, h1⟩, h2⟩ := h
    refine ⟨⟨⟨b, c, fun j hj l hl => ?_⟩, fun hb j hj l hl => ?_⟩, fun j hj l hl => ?_⟩
    · rw [c0 0 (by omega) j hj l hl, c1 0 (by omega) j hj l hl, c0 1 (by omega) j hj l hl]; exact h0 j hj l hl
    · rw [c0 _ (by omega) j hj l hl]; exact h1 hb j hj l hl
    · rw [c2 0 (by omega) j hj l hl]; exact h2 j hj l hl
  · have hz := hz (Or.inr hk)
    simp only [hk] at h ⊢
    norm_num at h ⊢
    intro j hj l hl
    rw [hV 0 0 j l (by simp [Dims.InRange, Dims.cshape, Dims.shape, hk]; exact ⟨by omega, by omega, by omega⟩)]
    exact h j hj l hl

/-- Array given by a flat vector built from an array. -/
theorem coef_ofArray (d : Dims) (hk : Dims.validDegree d.k) (W : Nat → Nat → Nat → Nat → ℝ) {c i j l : Nat}
    (h : d.InRange c i j l) :
    coef d (fun a => W (d.unravelIndex a).1 (d.unravelIndex a).2.1 (d.unravelIndex a).2.2.1 (d.unravelIndex a).2.2.2)
      c i j l = W c i j l := by
  rw [PolarOp.coef_eq hk h]
  simp only [d.unravelIndex_ravelIndex hk h]

/-- **C30** polar extraction: the exterior derivative (gradient, curl, divergence on coefficients) of an extracted
`k`-form is an extracted `(k+1)`-form, with or without the Dirichlet flag. -/
theorem C30_polar_complex (k : Int) (hk : k = 0 ∨ k = 1 ∨ k = 2) (ns ps : Nat × Nat × Nat) (tz : String) (f g : Form ℝ)
    (hf : PolarSetting k ns ps tz f) (hg : PolarSetting (k + 1) ns ps tz g) (dirichlet : Bool)
    (u : Fin (PolarOp.mk f.dims (getXi ns.2.1) dirichlet).n → ℝ) :
    ∃ w : Fin (PolarOp.mk g.dims (getXi ns.2.1) dirichlet).n → ℝ, ∀ c i j l, g.dims.InRange c i j l →
      coef g.dims ((PolarOp.mk g.dims (getXi ns.2.1) dirichlet).matrixᵀ *ᵥ w) c i j l
        = extDeriv f.dims (coef f.dims ((PolarOp.mk f.dims (getXi ns.2.1) dirichlet).matrixᵀ *ᵥ u)) c i j l := by
  obtain ⟨_, hd, _⟩ := Form.mk?_inv hf.hmk
  obtain ⟨hkg, hdg, _⟩ := Form.mk?_inv hg.hmk
  have hgk : g.dims.k = k + 1 := by rw [hdg]
  have hp := (C28_range_is_polar_forms k ns ps tz f hf dirichlet _).mp ⟨u, rfl⟩
  have hnr := hf.nr
  have hgz := hg.tz
  have edz : f.dims.dz = g.dims.dz := by rw [hd, hdg]
  have hclz : tz ≠ "clamped" → g.dims.dz = ns.2.2 := fun h => by rw [hdg]; simp [Form.dsize, h]
  have hle : g.dims.dz ≤ ns.2.2 := by rw [hdg]; simp only [Form.dsize]; split <;> omega
  have hext := polarForm_extDeriv f.dims k hk (by rw [hd]) ns.1 ns.2.1 ns.2.2 f.dims.dz hnr (by omega)
    (fun h => by rw [edz]; exact hclz (by rcases hgz with h | h | h | h <;> first | exact h | omega))
    (by rw [hd]) (by rw [hd]) (by rw [hd]) dirichlet _ hp
  have hgv : Dims.validDegree g.dims.k := by rw [hgk]; exact hkg
  let V' := extDeriv f.dims (coef f.dims ((PolarOp.mk f.dims (getXi ns.2.1) dirichlet).matrixᵀ *ᵥ u))
  let v' : Fin g.dims.n → ℝ := fun a => V' (g.dims.unravelIndex a).1 (g.dims.unravelIndex a).2.1
    (g.dims.unravelIndex a).2.2.1 (g.dims.unravelIndex a).2.2.2
  have hcoef : ∀ c i j l, g.dims.InRange c i j l → coef g.dims v' c i j l = V' c i j l := fun c i j l h =>
    coef_ofArray g.dims hgv V' h
  have hv' : PolarForm (k + 1) ns.1 ns.2.1 ns.2.2 g.dims.dz dirichlet (coef g.dims v') := by
    have := polarForm_congr g.dims (by omega) (by rw [hdg]; exact hnr) (by rw [hdg]; simp [Form.dsize])
      (by rw [hdg]; simp [Form.dsize])
      (fun h => by
        rw [hclz (by rcases hgz with h | h | h | h <;> first | exact h | omega)]; rw [hdg])
      dirichlet _ V' hcoef (by
        rw [hgk, show g.dims.nr = ns.1 by rw [hdg], show g.dims.nt = ns.2.1 by rw [hdg],
          show g.dims.nz = ns.2.2 by rw [hdg], ← edz]
        exact hext)
    rw [hgk, show g.dims.nr = ns.1 by rw [hdg], show g.dims.nt = ns.2.1 by rw [hdg],
          show g.dims.nz = ns.2.2 by rw [hdg]] at this
    exact this
  obtain ⟨w, hw⟩ := (C28_range_is_polar_forms (k + 1) ns ps tz g hg dirichlet v').mpr hv'
  refine ⟨w, fun c i j l h => ?_⟩
  rw [hw]
  exact hcoef c i j l h

/-- Case: 1-forms on 4 × 5 × 3 splines. -/
example (dirichlet : Bool) (u) := C30_polar_complex 1 (by norm_num) (4, 5, 3) (2, 2, 1) "periodic" _ _
  ⟨rfl, by norm_num, by norm_num⟩ ⟨rfl, by norm_num, Or.inr (Or.inr (Or.inr (by decide)))⟩ dirichlet u

/-! ## C30 for boundary operators -/

theorem boundary_range (B : BoundaryOp) (hk : B.Λ.k = 0 ∨ B.Λ.k = 1 ∨ B.Λ.k = 2 ∨ B.Λ.k = 3) (v : Fin B.Λ.n → ℝ) :
    (∃ u, B.matrixᵀ *ᵥ u = v) ↔ ∀ c : Fin B.Λ.n, ¬ Kept B.Λ B.types (B.Λ.unravelIndex c) → v c = 0 := by
  constructor
  · rintro ⟨u, rfl⟩ c hc
    rw [mulVec_transpose]
    exact boundary_vecMul_dropped B hk u c hc
  · intro h
    refine ⟨B.matrix *ᵥ v, ?_⟩
    funext c
    by_cases hc : Kept B.Λ B.types (B.Λ.unravelIndex c)
    · exact (C26_projection B hk v c).1 hc
    · rw [(C26_projection B hk v c).2 hc, h c hc]

/-- Sizes of the four forms of one sequence. -/
def withDegree (d : Dims) (k : Int) : Dims := { d with k := k }

theorem dropped_coef (d : Dims) (hv : Dims.validDegree d.k) (types : String × String × String) (v : Fin d.n → ℝ)
    (h : ∀ c : Fin d.n, ¬ Kept d types (d.unravelIndex c) → v c = 0) {c i j l : Nat} (hin : d.InRange c i j l)
    (hkept : ¬ Kept d types (c, i, j, l)) : coef d v c i j l = 0 := by
  rw [PolarOp.coef_eq hv hin]
  apply h
  simp only [d.unravelIndex_ravelIndex hv hin]
  exact hkept

/-- **C30** boundary operators: the exterior derivative of a `k`-form in the range of the operator is a
`(k+1)`-form in the range of the operator of the next degree, for all condition types. -/
theorem C30_boundary_complex (d : Dims) (k : Int) (hk : k = 0 ∨ k = 1 ∨ k = 2) (types : String × String × String)
    (hr : d.dr ≤ d.nr) (ht : d.dt ≤ d.nt) (hz : d.dz ≤ d.nz)
    (u : Fin (BoundaryOp.mk (withDegree d k) types).rowDims.n → ℝ) :
    ∃ w : Fin (BoundaryOp.mk (withDegree d (k + 1)) types).rowDims.n → ℝ,
      ∀ c i j l, (withDegree d (k + 1)).InRange c i j l →
      coef (withDegree d (k + 1)) ((BoundaryOp.mk (withDegree d (k + 1)) types).matrixᵀ *ᵥ w) c i j l
        = extDeriv (withDegree d k)
          (coef (withDegree d k) ((BoundaryOp.mk (withDegree d k) types).matrixᵀ *ᵥ u)) c i j l := by
  have hkB : (BoundaryOp.mk (withDegree d k) types).Λ.k = 0 ∨ (BoundaryOp.mk (withDegree d k) types).Λ.k = 1 ∨ (BoundaryOp.mk (withDegree d k) types).Λ.k = 2 ∨ (BoundaryOp.mk (withDegree d k) types).Λ.k = 3 := by
    show k = 0 ∨ k = 1 ∨ k = 2 ∨ k = 3; omega
  have hkB' : (BoundaryOp.mk (withDegree d (k + 1)) types).Λ.k = 0 ∨ (BoundaryOp.mk (withDegree d (k + 1)) types).Λ.k = 1 ∨ (BoundaryOp.mk (withDegree d (k + 1)) types).Λ.k = 2 ∨ (BoundaryOp.mk (withDegree d (k + 1)) types).Λ.k = 3 := by
    show k + 1 = 0 ∨ k + 1 = 1 ∨ k + 1 = 2 ∨ k + 1 = 3; omega
  have hv : Dims.validDegree (withDegree d k).k := by show Dims.validDegree k; unfold Dims.validDegree; omega
  have hv' : Dims.validDegree (withDegree d (k + 1)).k := by
    show Dims.validDegree (k + 1); unfold Dims.validDegree; omega
  have hdrop := (boundary_range (BoundaryOp.mk (withDegree d k) types) hkB ((BoundaryOp.mk (withDegree d k) types).matrixᵀ *ᵥ u)).mp ⟨u, rfl⟩
  have Z : ∀ {c i j l : Nat}, (withDegree d k).InRange c i j l → ¬ Kept (withDegree d k) types (c, i, j, l) →
      coef (withDegree d k) ((BoundaryOp.mk (withDegree d k) types).matrixᵀ *ᵥ u) c i j l = 0 := fun hin hk' => dropped_coef _ hv types _ hdrop hin hk'
  have hext : ∀ c i j l, (withDegree d (k + 1)).InRange c i j l → ¬ Kept (withDegree d (k + 1)) types (c, i, j, l) →
      extDeriv (withDegree d k) (coef (withDegree d k) ((BoundaryOp.mk (withDegree d k) types).matrixᵀ *ᵥ u)) c i j l = 0 := by
    generalize coef (withDegree d k) ((BoundaryOp.mk (withDegree d k) types).matrixᵀ *ᵥ u) = C at Z ⊢
    clear hdrop
    clear u
    intro c i j l hin hnk
    have hc := hin.comp_lt
    rcases hk with rfl | rfl | rfl
    · simp [withDegree, Dims.shape] at hc
      interval_cases c <;>
        simp [withDegree, Dims.InRange, Dims.cshape, Dims.shape] at hin <;>
        obtain ⟨h1, h2, h3⟩ := hin <;>
        have m1 := Nat.mod_lt (i + 1) (show d.nr > 0 by omega) <;>
        have m2 := Nat.mod_lt (j + 1) (show d.nt > 0 by omega) <;>
        have m3 := Nat.mod_lt (l + 1) (show d.nz > 0 by omega) <;>
        simp only [extDeriv, Δr, Δt, Δz, show (withDegree d 0).k = 0 from rfl, if_true, one_ne_zero, if_false,
          show ¬ (2 = 0) by decide, show ¬ (2 = 1) by decide] <;>
        simp [Kept, isDeriv, withDegree] at hnk <;>
        rw [Z, Z, sub_zero] <;>
        first
        | (simp [withDegree, Dims.InRange, Dims.cshape, Dims.shape]; omega)
        | (simp [Kept, isDeriv, withDegree]; tauto)
    · simp [withDegree, Dims.shape] at hc
      interval_cases c <;>
        simp [withDegree, Dims.InRange, Dims.cshape, Dims.shape] at hin <;>
        obtain ⟨h1, h2, h3⟩ := hin <;>
        have m1 := Nat.mod_lt (i + 1) (show d.nr > 0 by omega) <;>
        have m2 := Nat.mod_lt (j + 1) (show d.nt > 0 by omega) <;>
        have m3 := Nat.mod_lt (l + 1) (show d.nz > 0 by omega) <;>
        simp only [extDeriv, Δr, Δt, Δz, show (withDegree d 1).k = 1 from rfl, if_true, one_ne_zero, if_false,
          show ¬ (2 = 0) by decide, show ¬ (2 = 1) by decide, show ¬ ((1 : Int) = 0) by decide] <;>
        simp [Kept, isDeriv, withDegree] at hnk <;>
        rw [Z, Z, Z, Z, sub_zero, sub_zero] <;>
        first
        | (simp [withDegree, Dims.InRange, Dims.cshape, Dims.shape]; omega)
        | (simp [Kept, isDeriv, withDegree]; tauto)
    · exfalso; apply hnk
      simp [Kept, isDeriv, withDegree]
  let V' := extDeriv (withDegree d k) (coef (withDegree d k) ((BoundaryOp.mk (withDegree d k) types).matrixᵀ *ᵥ u))
  let e := (withDegree d (k + 1))
  let v' : Fin e.n → ℝ := fun a => V' (e.unravelIndex a).1 (e.unravelIndex a).2.1 (e.unravelIndex a).2.2.1
    (e.unravelIndex a).2.2.2
  obtain ⟨w, hw⟩ := (boundary_range (BoundaryOp.mk (withDegree d (k + 1)) types) hkB' v').mpr (fun a ha =>
    hext _ _ _ _ (e.unravelIndex_inRange hv' a.2).1 ha)
  exact ⟨w, fun c i j l h => by rw [hw]; exact coef_ofArray e hv' V' h⟩

/-- Case: 1-forms on 4 × 5 × 3 splines, Dirichlet in the first direction. -/
example (u) := C30_boundary_complex ⟨0, 4, 5, 3, 3, 5, 3⟩ 1 (by norm_num) ("dirichlet", "periodic", "periodic") (by decide)
  (by decide) (by decide) u

end Mrx.Props
