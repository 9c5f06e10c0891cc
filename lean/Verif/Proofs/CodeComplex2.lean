import Verif.Proofs.CodeComplex

/-! # The complex the code builds: extraction, and `d ∘ d = 0` -/

set_option linter.unusedSectionVars false
set_option linter.unusedSimpArgs false
set_option linter.unusedVariables false

namespace Mrx
open Finset Jax Spec Matrix Quad Props

/-! ## One-dimensional facts -/

/-- In a periodic poloidal direction the operator is the cyclic difference. -/
theorem dT_periodic (d : Dims) (hdt : d.dt = d.nt) (C : Nat → Nat → Nat → ℝ) (i j l : Nat) (hj : j < d.nt) :
    dT d C i j l = C i ((j + 1) % d.nt) l - C i j l := by
  unfold dT δt
  simp only [sub_mul, Finset.sum_sub_distrib, ite_mul, one_mul, zero_mul, hdt]
  congr 1
  · rw [Finset.sum_eq_single ((j + 1) % d.nt)]
    · rw [if_pos]
      rcases Nat.lt_or_ge (j + 1) d.nt with h | h
      · rw [Nat.mod_eq_of_lt h]; split_ifs <;> omega
      · have : j + 1 = d.nt := by omega
        rw [this, Nat.mod_self]; simp; omega
    · intro b hb hne
      have hb := mem_range.mp hb
      rw [if_neg]
      intro e
      apply hne
      split_ifs at e with h0
      · have : b = j + 1 := by omega
        rw [← this, Nat.mod_eq_of_lt hb]
      · have : j + 1 = d.nt := by omega
        rw [this, Nat.mod_self]; omega
    · intro hn
      exact absurd (mem_range.mpr (Nat.mod_lt _ (by omega))) hn
  · rw [Finset.sum_eq_single j]
    · rw [if_pos (by omega)]
    · intro b hb hne
      have hb := mem_range.mp hb
      rw [if_neg (by omega)]
    · intro hn; exact absurd (mem_range.mpr hj) hn

/-- At the axis the radial operator is the difference of the first two rings. -/
theorem dR_axis (d : Dims) (hdr : d.dr = d.nr - 1) (hnr : 3 ≤ d.nr) (hnt : 2 ≤ d.nt) (C : Nat → Nat → Nat → ℝ) (j l : Nat) :
    dR d C 0 j l = C 1 j l - C 0 j l := by
  unfold dR δr
  simp only [sub_mul, Finset.sum_sub_distrib, ite_mul, one_mul, zero_mul, hdr]
  congr 1
  · rw [Finset.sum_eq_single 1]
    · rw [if_pos ⟨by omega, by omega⟩]
    · intro b hb hne
      have hb := mem_range.mp hb
      rw [if_neg]; omega
    · intro hn; exact absurd (mem_range.mpr (by omega)) hn
  · rw [Finset.sum_eq_single 0]
    · rw [if_pos ⟨by omega, by omega⟩]
    · intro b hb hne
      have hb := mem_range.mp hb
      rw [if_neg]; omega
    · intro hn; exact absurd (mem_range.mpr (by omega)) hn

theorem dZ_zero (d : Dims) (C : Nat → Nat → Nat → ℝ) (i j l : Nat) (h : ∀ l < d.nz, C i j l = 0) : dZ d C i j l = 0 :=
  Finset.sum_eq_zero fun m hm => by rw [h m (mem_range.mp hm), mul_zero]
theorem dT_zero (d : Dims) (C : Nat → Nat → Nat → ℝ) (i j l : Nat) (h : ∀ j < d.nt, C i j l = 0) : dT d C i j l = 0 :=
  Finset.sum_eq_zero fun m hm => by rw [h m (mem_range.mp hm), mul_zero]
theorem dR_zero (d : Dims) (C : Nat → Nat → Nat → ℝ) (i j l : Nat) (h : ∀ i < d.nr, C i j l = 0) : dR d C i j l = 0 :=
  Finset.sum_eq_zero fun m hm => by rw [h m (mem_range.mp hm), mul_zero]

theorem dR_congr (d : Dims) {C C' : Nat → Nat → Nat → ℝ} {j l : Nat} (h : ∀ i < d.nr, C i j l = C' i j l) (i : Nat) :
    dR d C i j l = dR d C' i j l := Finset.sum_congr rfl fun m hm => by rw [h m (mem_range.mp hm)]
theorem dT_congr (d : Dims) {C C' : Nat → Nat → Nat → ℝ} {i l : Nat} (h : ∀ j < d.nt, C i j l = C' i j l) (j : Nat) :
    dT d C i j l = dT d C' i j l := Finset.sum_congr rfl fun m hm => by rw [h m (mem_range.mp hm)]
theorem dZ_congr (d : Dims) {C C' : Nat → Nat → Nat → ℝ} {i j : Nat} (h : ∀ l < d.nz, C i j l = C' i j l) (l : Nat) :
    dZ d C i j l = dZ d C' i j l := Finset.sum_congr rfl fun m hm => by rw [h m (mem_range.mp hm)]

/-- The axial operator acts on functions of the axial index. -/
def dZ1 (d : Dims) (a : Nat → ℝ) (l : Nat) : ℝ := ∑ m ∈ range d.nz, δz d l m * a m

theorem dZ1_add (d : Dims) (a b : Nat → ℝ) (l : Nat) : dZ1 d (fun l => a l + b l) l = dZ1 d a l + dZ1 d b l := by
  simp only [dZ1, mul_add, Finset.sum_add_distrib]
theorem dZ1_mul (d : Dims) (a : Nat → ℝ) (c : ℝ) (l : Nat) : dZ1 d (fun l => a l * c) l = dZ1 d a l * c := by
  simp only [dZ1, Finset.sum_mul, mul_assoc]
theorem dZ1_neg (d : Dims) (a : Nat → ℝ) (l : Nat) : dZ1 d (fun l => -a l) l = -dZ1 d a l := by
  simp only [dZ1, mul_neg, Finset.sum_neg_distrib]
theorem dZ_eq (d : Dims) {C : Nat → Nat → Nat → ℝ} {i j : Nat} {a : Nat → ℝ} (h : ∀ l < d.nz, C i j l = a l) (l : Nat) :
    dZ d C i j l = dZ1 d a l := Finset.sum_congr rfl fun m hm => by rw [h m (mem_range.mp hm)]

/-! ## Polar regularity -/

theorem polarForm_codeDeriv (d : Dims) (k : Int) (hk : k = 0 ∨ k = 1 ∨ k = 2) (hdk : d.k = k)
    (hnr : 3 ≤ d.nr) (hnt : 2 ≤ d.nt) (hdr : d.dr = d.nr - 1) (hdt : d.dt = d.nt) (hz : d.dz = d.nz)
    (dir : Bool) (V : Nat → Nat → Nat → Nat → ℝ) (h : PolarForm k d.nr d.nt d.nz d.dz dir V) :
    PolarForm (k + 1) d.nr d.nt d.nz d.dz dir (codeDeriv d V) := by
  have hang : ∀ j, j < d.nt → Real.cos (ang d.nt ((j + 1) % d.nt)) = Real.cos (ang d.nt (j + 1)) ∧
      Real.sin (ang d.nt ((j + 1) % d.nt)) = Real.sin (ang d.nt (j + 1)) := fun j hj => ang_mod d.nt (j + 1) (by omega)
  have hT := dT_periodic d hdt
  have hR := dR_axis d hdr hnr hnt
  rw [hz] at *
  rcases hk with rfl | rfl | rfl
  · obtain ⟨E0, E1, E2⟩ := code0 hdk V
    simp only [PolarForm] at h ⊢
    norm_num
    obtain ⟨⟨a, b, c, h01⟩, hd⟩ := h
    refine ⟨⟨⟨b, c, fun j hj l hl => ⟨?_, ?_, ?_⟩⟩, ?_⟩, ⟨⟨dZ1 d a, dZ1 d b, dZ1 d c, fun j hj l hl => ⟨?_, ?_⟩⟩, ?_⟩⟩
    · rw [E0, hR, (h01 j hj l hl).1, (h01 j hj l hl).2]; ring
    · rw [E1, hT _ _ _ _ hj, (h01 j hj l hl).1, (h01 _ (Nat.mod_lt _ (by omega)) l hl).1]; ring
    · rw [E1, hT _ _ _ _ hj, (h01 j hj l hl).2, (h01 _ (Nat.mod_lt _ (by omega)) l hl).2, (hang j hj).1, (hang j hj).2]; ring
    · intro hb j hj l hl
      rw [E1]
      exact dT_zero _ _ _ _ _ fun j hj => hd hb j hj l hl
    · rw [E2]
      exact dZ_eq d (fun l hl => (h01 j hj l hl).1) l
    · rw [E2, dZ_eq d (fun l hl => (h01 j hj l hl).2) l, dZ1_add, dZ1_add, dZ1_mul, dZ1_mul]
    · intro hb j hj l hl
      rw [E2]
      exact dZ_zero _ _ _ _ _ fun l hl => hd hb j hj l hl
  · obtain ⟨E0, E1, E2⟩ := code1 hdk V
    simp only [PolarForm] at h ⊢
    norm_num at h ⊢
    obtain ⟨⟨⟨b, c, h01⟩, hd⟩, ⟨⟨a', b', c', h01'⟩, hd'⟩⟩ := h
    refine ⟨⟨⟨fun l => b' l - dZ1 d b l, fun l => c' l - dZ1 d c l, fun j hj l hl => ⟨?_, ?_, ?_⟩⟩, ?_⟩, ?_⟩
    · have m1 := Nat.mod_lt (j + 1) (show d.nt > 0 by omega)
      rw [E0]
      beta_reduce
      rw [hT _ _ _ _ hj, dZ_zero _ _ _ _ _ (fun l hl => (h01 j hj l hl).2.1), (h01' j hj l hl).1, (h01' _ m1 l hl).1]
      ring
    · have m1 := Nat.mod_lt (j + 1) (show d.nt > 0 by omega)
      rw [E0]
      beta_reduce
      rw [hT _ _ _ _ hj, dZ_eq d (fun l hl => (h01 j hj l hl).2.2) l, dZ1_add, dZ1_mul, dZ1_mul, (h01' j hj l hl).2,
        (h01' _ m1 l hl).2, (hang j hj).1, (hang j hj).2]
      ring
    · rw [E1]
      beta_reduce
      rw [hR, dZ_eq d (fun l hl => (h01 j hj l hl).1) l, dZ1_add, dZ1_mul, dZ1_mul, (h01' j hj l hl).2, (h01' j hj l hl).1]
      ring
    · intro hb j hj l hl
      rw [E0]
      beta_reduce
      rw [dT_zero _ _ _ _ _ fun j hj => hd' hb j hj l hl, dZ_zero _ _ _ _ _ fun l hl => hd hb j hj l hl, sub_zero]
    · intro j hj l hl
      have m1 := Nat.mod_lt (j + 1) (show d.nt > 0 by omega)
      rw [E2]
      beta_reduce
      rw [hR, hT _ _ _ _ hj, (h01 j hj l hl).2.2, (h01 j hj l hl).2.1, (h01 j hj l hl).1, (h01 _ m1 l hl).1,
        (hang j hj).1, (hang j hj).2]
      ring
  · have E0 := code2 hdk V 0
    simp only [PolarForm] at h ⊢
    norm_num at h ⊢
    obtain ⟨⟨⟨b, c, h01⟩, hd⟩, h3⟩ := h
    intro j hj l hl
    have m1 := Nat.mod_lt (j + 1) (show d.nt > 0 by omega)
    rw [E0]
    beta_reduce
    rw [hR, hT _ _ _ _ hj, dZ_zero _ _ _ _ _ (fun l hl => h3 j hj l hl), (h01 j hj l hl).2.1, (h01 j hj l hl).1,
      (h01 j hj l hl).2.2, (h01 _ m1 l hl).2.2, (hang j hj).1, (hang j hj).2]
    ring

theorem polar_code_complex (k : Int) (hk : k = 0 ∨ k = 1 ∨ k = 2) (ns ps : Nat × Nat × Nat) (tz : String) (f g : Form ℝ)
    (htz : tz ≠ "clamped") (hnt : 2 ≤ ns.2.1)
    (hf : PolarSetting k ns ps tz f) (hg : PolarSetting (k + 1) ns ps tz g) (dirichlet : Bool)
    (u : Fin (PolarOp.mk f.dims (getXi ns.2.1) dirichlet).n → ℝ) :
    ∃ w : Fin (PolarOp.mk g.dims (getXi ns.2.1) dirichlet).n → ℝ, ∀ c i j l, g.dims.InRange c i j l →
      coef g.dims ((PolarOp.mk g.dims (getXi ns.2.1) dirichlet).matrixᵀ *ᵥ w) c i j l
        = codeDeriv f.dims (coef f.dims ((PolarOp.mk f.dims (getXi ns.2.1) dirichlet).matrixᵀ *ᵥ u)) c i j l := by
  obtain ⟨_, hd, _⟩ := Form.mk?_inv hf.hmk
  obtain ⟨hkg, hdg, _⟩ := Form.mk?_inv hg.hmk
  have hgk : g.dims.k = k + 1 := by rw [hdg]
  have hp := (C28_range_is_polar_forms k ns ps tz f hf dirichlet _).mp ⟨u, rfl⟩
  have hnr := hf.nr
  have fnr : f.dims.nr = ns.1 := by rw [hd]
  have fnt : f.dims.nt = ns.2.1 := by rw [hd]
  have fnz : f.dims.nz = ns.2.2 := by rw [hd]
  have gnr : g.dims.nr = ns.1 := by rw [hdg]
  have gnt : g.dims.nt = ns.2.1 := by rw [hdg]
  have gnz : g.dims.nz = ns.2.2 := by rw [hdg]
  have fdz : f.dims.dz = ns.2.2 := by rw [hd]; simp [Form.dsize, htz]
  have gdz : g.dims.dz = ns.2.2 := by rw [hdg]; simp [Form.dsize, htz]
  have hext := polarForm_codeDeriv f.dims k hk (by rw [hd]) (by omega) (by omega) (by rw [hd]; simp [Form.dsize])
    (by rw [hd]; simp [Form.dsize]) (by omega) dirichlet _ (by rw [fnr, fnt, fnz]; exact hp)
  have hgv : Dims.validDegree g.dims.k := by rw [hgk]; exact hkg
  let V' := codeDeriv f.dims (coef f.dims ((PolarOp.mk f.dims (getXi ns.2.1) dirichlet).matrixᵀ *ᵥ u))
  let v' : Fin g.dims.n → ℝ := fun a => V' (g.dims.unravelIndex a).1 (g.dims.unravelIndex a).2.1
    (g.dims.unravelIndex a).2.2.1 (g.dims.unravelIndex a).2.2.2
  have hcoef : ∀ c i j l, g.dims.InRange c i j l → coef g.dims v' c i j l = V' c i j l := fun c i j l h =>
    coef_ofArray g.dims hgv V' h
  have hv' : PolarForm (k + 1) ns.1 ns.2.1 ns.2.2 g.dims.dz dirichlet (coef g.dims v') := by
    have := polarForm_congr g.dims (by omega) (by omega) (by rw [hdg]; simp [Form.dsize])
      (by rw [hdg]; simp [Form.dsize]) (fun h => by omega) dirichlet _ V' hcoef (by
        rw [hgk, gnr, gnt, gnz, gdz]
        rw [fnr, fnt, fnz, fdz] at hext
        exact hext)
    rw [hgk, gnr, gnt, gnz] at this
    exact this
  obtain ⟨w, hw⟩ := (C28_range_is_polar_forms (k + 1) ns ps tz g hg dirichlet v').mpr hv'
  refine ⟨w, fun c i j l h => ?_⟩
  rw [hw]
  exact hcoef c i j l h

/-! ## Boundary operators (conditions only in the radial direction, as the sequence uses them) -/

theorem boundary_code_complex (d : Dims) (k : Int) (hk : k = 0 ∨ k = 1 ∨ k = 2) (t0 : String)
    (u : Fin (BoundaryOp.mk (withDegree d k) (t0, "none", "none")).rowDims.n → ℝ) :
    ∃ w : Fin (BoundaryOp.mk (withDegree d (k + 1)) (t0, "none", "none")).rowDims.n → ℝ,
      ∀ c i j l, (withDegree d (k + 1)).InRange c i j l →
      coef (withDegree d (k + 1)) ((BoundaryOp.mk (withDegree d (k + 1)) (t0, "none", "none")).matrixᵀ *ᵥ w) c i j l
        = codeDeriv (withDegree d k)
          (coef (withDegree d k) ((BoundaryOp.mk (withDegree d k) (t0, "none", "none")).matrixᵀ *ᵥ u)) c i j l := by
  generalize hty : (t0, "none", "none") = types at u ⊢
  have hkB : (BoundaryOp.mk (withDegree d k) types).Λ.k = 0 ∨ (BoundaryOp.mk (withDegree d k) types).Λ.k = 1 ∨ (BoundaryOp.mk (withDegree d k) types).Λ.k = 2 ∨ (BoundaryOp.mk (withDegree d k) types).Λ.k = 3 := by
    show k = 0 ∨ k = 1 ∨ k = 2 ∨ k = 3; omega
  have hkB' : (BoundaryOp.mk (withDegree d (k + 1)) types).Λ.k = 0 ∨ (BoundaryOp.mk (withDegree d (k + 1)) types).Λ.k = 1 ∨ (BoundaryOp.mk (withDegree d (k + 1)) types).Λ.k = 2 ∨ (BoundaryOp.mk (withDegree d (k + 1)) types).Λ.k = 3 := by
    show k + 1 = 0 ∨ k + 1 = 1 ∨ k + 1 = 2 ∨ k + 1 = 3; omega
  have hv : Dims.validDegree (withDegree d k).k := by show Dims.validDegree k; unfold Dims.validDegree; omega
  have hv' : Dims.validDegree (withDegree d (k + 1)).k := by
    show Dims.validDegree (k + 1); unfold Dims.validDegree; omega
  have hdrop := (boundary_range (BoundaryOp.mk (withDegree d k) types) hkB ((BoundaryOp.mk (withDegree d k) types).matrixᵀ *ᵥ u)).mp ⟨u, rfl⟩
  have Z : ∀ {c i j l : Nat}, (withDegree d k).InRange c i j l → ¬ Kept (withDegree d k) types (c, i, j, l) →
      coef (withDegree d k) ((BoundaryOp.mk (withDegree d k) types).matrixᵀ *ᵥ u) c i j l = 0 := fun hin hk' => dropped_coef _ hv types _ hdrop hin hk'
  have hnone : ∀ n p, Keeps1 "none" n p := fun n p => ⟨fun h => by simp [LeftConstrained] at h, fun h => by
    simp [RightConstrained] at h⟩
  have hkept : ∀ e c i j l, Kept e types (c, i, j, l) ↔ (isDeriv e.k c 0 = true ∨ Keeps1 t0 e.nr i) := by
    intro e c i j l
    rw [← hty]
    simp [Kept, hnone]
  have hext : ∀ c i j l, (withDegree d (k + 1)).InRange c i j l → ¬ Kept (withDegree d (k + 1)) types (c, i, j, l) →
      codeDeriv (withDegree d k) (coef (withDegree d k) ((BoundaryOp.mk (withDegree d k) types).matrixᵀ *ᵥ u)) c i j l = 0 := by
    generalize coef (withDegree d k) ((BoundaryOp.mk (withDegree d k) types).matrixᵀ *ᵥ u) = C at Z ⊢
    clear hdrop
    clear u
    intro c i j l hin hnk
    have hc := hin.comp_lt
    rw [hkept] at hnk
    push Not at hnk
    obtain ⟨hnd, hnk⟩ := hnk
    rcases hk with rfl | rfl | rfl
    · obtain ⟨E0, E1, E2⟩ := code0 (d := withDegree d 0) rfl C
      have Z' : ∀ {i j l : Nat}, i < d.nr → j < d.nt → l < d.nz → ¬ Keeps1 t0 d.nr i → C 0 i j l = 0 := by
        intro i j l h1 h2 h3 hn
        refine Z ⟨by simpa [withDegree, Dims.cshape, Dims.shape] using h1, by simpa [withDegree, Dims.cshape, Dims.shape] using h2,
          by simpa [withDegree, Dims.cshape, Dims.shape] using h3⟩ ?_
        rw [hkept]; push Not
        exact ⟨by simp [withDegree, isDeriv], hn⟩
      simp [withDegree, Dims.shape] at hc
      interval_cases c
      · simp [withDegree, isDeriv] at hnd
      · simp [withDegree, Dims.InRange, Dims.cshape, Dims.shape] at hin
        rw [E1]
        exact dT_zero _ _ _ _ _ fun j hj => Z' hin.1 hj hin.2.2 hnk
      · simp [withDegree, Dims.InRange, Dims.cshape, Dims.shape] at hin
        rw [E2]
        exact dZ_zero _ _ _ _ _ fun l hl => Z' hin.1 hin.2.1 hl hnk
    · obtain ⟨E0, E1, E2⟩ := code1 (d := withDegree d 1) rfl C
      simp [withDegree, Dims.shape] at hc
      interval_cases c
      · simp [withDegree, Dims.InRange, Dims.cshape, Dims.shape] at hin
        rw [E0]
        beta_reduce
        rw [dT_zero _ _ _ _ _ fun j hj => ?_, dZ_zero _ _ _ _ _ fun l hl => ?_, sub_zero]
        · refine Z ?_ ?_
          · simp [withDegree, Dims.InRange, Dims.cshape, Dims.shape]; exact ⟨hin.1, hin.2.1, hl⟩
          · rw [hkept]; push Not; exact ⟨by simp [withDegree, isDeriv], hnk⟩
        · refine Z ?_ ?_
          · simp [withDegree, Dims.InRange, Dims.cshape, Dims.shape]; exact ⟨hin.1, hj, hin.2.2⟩
          · rw [hkept]; push Not; exact ⟨by simp [withDegree, isDeriv], hnk⟩
      · simp [withDegree, isDeriv] at hnd
      · simp [withDegree, isDeriv] at hnd
    · simp [withDegree, isDeriv] at hnd
  let V' := codeDeriv (withDegree d k) (coef (withDegree d k) ((BoundaryOp.mk (withDegree d k) types).matrixᵀ *ᵥ u))
  let e := (withDegree d (k + 1))
  let v' : Fin e.n → ℝ := fun a => V' (e.unravelIndex a).1 (e.unravelIndex a).2.1 (e.unravelIndex a).2.2.1
    (e.unravelIndex a).2.2.2
  obtain ⟨w, hw⟩ := (boundary_range (BoundaryOp.mk (withDegree d (k + 1)) types) hkB' v').mpr (fun a ha =>
    hext _ _ _ _ (e.unravelIndex_inRange hv' a.2).1 ha)
  exact ⟨w, fun c i j l h => by rw [hw]; exact coef_ofArray e hv' V' h⟩

end Mrx
