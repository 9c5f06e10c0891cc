import Verif.Proofs.AllBetti2

/-!
# Cohomology of the discrete complex of the code for all sizes
-/

set_option linter.unusedSectionVars false
set_option linter.unusedVariables false

namespace Mrx
open Finset Jax Spec Matrix Quad Props Module

/-- Closed modulo exact, measured by `Φ`, whose values on the closed forms are a subspace. -/
theorem finrank_ker_of' {V W U T : Type} [AddCommGroup V] [Module ℝ V] [AddCommGroup W] [Module ℝ W] [FiniteDimensional ℝ W]
    [AddCommGroup U] [Module ℝ U] [AddCommGroup T] [Module ℝ T] (A : V →ₗ[ℝ] W) (B : W →ₗ[ℝ] U) (Φ : W →ₗ[ℝ] T) (S : Submodule ℝ T)
    (h0 : ∀ x, B (A x) = 0) (h1 : ∀ x, Φ (A x) = 0) (h2 : ∀ w, B w = 0 → Φ w = 0 → ∃ x, A x = w) (h3 : ∀ w, B w = 0 → Φ w ∈ S)
    (h4 : ∀ t ∈ S, ∃ w, B w = 0 ∧ Φ w = t) :
    finrank ℝ (LinearMap.ker B) = finrank ℝ (LinearMap.range A) + finrank ℝ S := by
  have hle : LinearMap.range A ≤ LinearMap.ker B := by
    rintro _ ⟨x, rfl⟩; exact h0 x
  have hk : LinearMap.ker (Φ.domRestrict (LinearMap.ker B)) = (LinearMap.range A).comap (LinearMap.ker B).subtype := by
    ext ⟨w, hw⟩
    simp only [LinearMap.mem_ker, LinearMap.domRestrict_apply, Submodule.mem_comap, Submodule.subtype_apply, LinearMap.mem_range]
    constructor
    · intro h; exact h2 w hw h
    · rintro ⟨x, rfl⟩; exact h1 x
  have hr : LinearMap.range (Φ.domRestrict (LinearMap.ker B)) = S := by
    ext t
    constructor
    · rintro ⟨⟨w, hw⟩, rfl⟩; exact h3 w hw
    · intro ht
      obtain ⟨w, hw, e⟩ := h4 t ht
      exact ⟨⟨w, hw⟩, e⟩
  have := LinearMap.finrank_range_add_finrank_ker (Φ.domRestrict (LinearMap.ker B))
  rw [hk, hr, finrank_sub_of_le hle] at this
  omega

namespace Cw
variable {D : DeRham} {polar dir : Bool} {N M L : Nat} (h : Cw D polar dir N M L)
include h

/-- The arrays of the coefficients. -/
theorem ops (k : Int) (d : Dims) (hd : d = dk N M L k) (C : Nat → Nat → Nat → ℝ) :
    (∀ i < N - 1, ∀ j l, dR d C i j l = codeRad N M (fun i => C i j l) i) ∧
    (∀ i, ∀ j < M, ∀ l, dT d C i j l = cyc M (fun j => C i j l) j) ∧
    (∀ i j, ∀ l < L, dZ d C i j l = codeAx M L (fun l => C i j l) l) := by
  subst hd
  exact ⟨fun i hi j l => dR_codeRad (dk N M L k) h.hN rfl C i j l hi, fun i j hj l => dT_periodic (dk N M L k) rfl C i j l hj,
    fun i j l hl => dZ_code (dk N M L k) rfl h.hM C i j l hl⟩

theorem kv : Dims.validDegree D.S.L0.dims.k ∧ Dims.validDegree D.S.L1.dims.k ∧ Dims.validDegree D.S.L2.dims.k ∧
    Dims.validDegree D.S.L3.dims.k := by
  rw [h.d0, h.d1, h.d2, h.d3]
  simp [dk, Dims.validDegree]

theorem ext1 {u v : Fin D.m1 → ℝ} (e0 : ∀ i < N - 1, ∀ j < M, ∀ l < L, coef D.S.L1.dims (D.E1ᵀ *ᵥ u) 0 i j l = coef D.S.L1.dims (D.E1ᵀ *ᵥ v) 0 i j l)
    (e1 : ∀ i < N, ∀ j < M, ∀ l < L, coef D.S.L1.dims (D.E1ᵀ *ᵥ u) 1 i j l = coef D.S.L1.dims (D.E1ᵀ *ᵥ v) 1 i j l)
    (e2 : ∀ i < N, ∀ j < M, ∀ l < L, coef D.S.L1.dims (D.E1ᵀ *ᵥ u) 2 i j l = coef D.S.L1.dims (D.E1ᵀ *ᵥ v) 2 i j l) : u = v := by
  have : D.E1ᵀ *ᵥ u = D.E1ᵀ *ᵥ v := by
    refine ext_coef h.kv.2.1 fun c i j l hin => ?_
    rw [h.d1] at hin
    have hc := hin.comp_lt
    simp [Dims.shape, dk] at hc
    obtain ⟨_, i0, i1, i2, _⟩ := dk_in N M L
    interval_cases c
    · obtain ⟨a, b, c⟩ := (i0 _ _ _).mp hin; exact e0 i a j b l c
    · obtain ⟨a, b, c⟩ := (i1 _ _ _).mp hin; exact e1 i a j b l c
    · obtain ⟨a, b, c⟩ := (i2 _ _ _).mp hin; exact e2 i a j b l c
  have := h.core.e1 (u - v) (by rw [mulVec_sub, this, sub_self])
  exact sub_eq_zero.mp this

theorem ext3 {u v : Fin D.m3 → ℝ} (e : ∀ i < N - 1, ∀ j < M, ∀ l < L,
    coef D.S.L3.dims (D.E3ᵀ *ᵥ u) 0 i j l = coef D.S.L3.dims (D.E3ᵀ *ᵥ v) 0 i j l) : u = v := by
  have : D.E3ᵀ *ᵥ u = D.E3ᵀ *ᵥ v := by
    refine ext_coef h.kv.2.2.2 fun c i j l hin => ?_
    rw [h.d3] at hin
    obtain ⟨rfl, a, b, c⟩ := ((dk_in N M L).2.2.2.2.2.2.2 _ _ _ _).mp hin
    exact e i a j b l c
  have := h.core.e3 (u - v) (by rw [mulVec_sub, this, sub_self])
  exact sub_eq_zero.mp this

/-- Gradients on arrays. -/
theorem grad_arr (u : Fin D.m0 → ℝ) :
    (∀ i < N - 1, ∀ j < M, ∀ l < L, coef D.S.L1.dims (D.E1ᵀ *ᵥ (D.strongGrad *ᵥ u)) 0 i j l
      = codeRad N M (fun i => coef D.S.L0.dims (D.E0ᵀ *ᵥ u) 0 i j l) i) ∧
    (∀ i < N, ∀ j < M, ∀ l < L, coef D.S.L1.dims (D.E1ᵀ *ᵥ (D.strongGrad *ᵥ u)) 1 i j l
      = cyc M (fun j => coef D.S.L0.dims (D.E0ᵀ *ᵥ u) 0 i j l) j) ∧
    (∀ i < N, ∀ j < M, ∀ l < L, coef D.S.L1.dims (D.E1ᵀ *ᵥ (D.strongGrad *ᵥ u)) 2 i j l
      = codeAx M L (fun l => coef D.S.L0.dims (D.E0ᵀ *ᵥ u) 0 i j l) l) := by
  have hg := (h.core.grad u).2
  obtain ⟨e0, e1, e2⟩ := code0 (d := D.S.L0.dims) (by rw [h.d0]; rfl) (coef D.S.L0.dims (D.E0ᵀ *ᵥ u))
  obtain ⟨o0, o1, o2⟩ := h.ops 0 _ h.d0 (coef D.S.L0.dims (D.E0ᵀ *ᵥ u) 0)
  obtain ⟨_, i0, i1, i2, _⟩ := dk_in N M L
  refine ⟨fun i hi j hj l hl => ?_, fun i hi j hj l hl => ?_, fun i hi j hj l hl => ?_⟩
  · rw [hg 0 i j l (by rw [h.d1]; exact (i0 _ _ _).mpr ⟨hi, hj, hl⟩), e0, o0 i hi j l]
  · rw [hg 1 i j l (by rw [h.d1]; exact (i1 _ _ _).mpr ⟨hi, hj, hl⟩), e1, o1 i j hj l]
  · rw [hg 2 i j l (by rw [h.d1]; exact (i2 _ _ _).mpr ⟨hi, hj, hl⟩), e2, o2 i j l hl]

/-- Curl-free fields on arrays. -/
theorem curl_arr (u : Fin D.m1 → ℝ) : D.strongCurl *ᵥ u = 0 ↔
    (∀ i < N, ∀ j < M, ∀ l < L, cyc M (fun j => coef D.S.L1.dims (D.E1ᵀ *ᵥ u) 2 i j l) j
      = codeAx M L (fun l => coef D.S.L1.dims (D.E1ᵀ *ᵥ u) 1 i j l) l) ∧
    (∀ i < N - 1, ∀ j < M, ∀ l < L, codeAx M L (fun l => coef D.S.L1.dims (D.E1ᵀ *ᵥ u) 0 i j l) l
      = codeRad N M (fun i => coef D.S.L1.dims (D.E1ᵀ *ᵥ u) 2 i j l) i) ∧
    (∀ i < N - 1, ∀ j < M, ∀ l < L, codeRad N M (fun i => coef D.S.L1.dims (D.E1ᵀ *ᵥ u) 1 i j l) i
      = cyc M (fun j => coef D.S.L1.dims (D.E1ᵀ *ᵥ u) 0 i j l) j) := by
  have hg := (h.core.curl u).2
  obtain ⟨e0, e1, e2⟩ := code1 (d := D.S.L1.dims) (by rw [h.d1]; rfl) (coef D.S.L1.dims (D.E1ᵀ *ᵥ u))
  obtain ⟨a0, a1, a2⟩ := h.ops 1 _ h.d1 (coef D.S.L1.dims (D.E1ᵀ *ᵥ u) 0)
  obtain ⟨b0, b1, b2⟩ := h.ops 1 _ h.d1 (coef D.S.L1.dims (D.E1ᵀ *ᵥ u) 1)
  obtain ⟨c0, c1, c2⟩ := h.ops 1 _ h.d1 (coef D.S.L1.dims (D.E1ᵀ *ᵥ u) 2)
  obtain ⟨_, _, _, _, i0, i1, i2, _⟩ := dk_in N M L
  have f0 : ∀ i < N, ∀ j < M, ∀ l < L, coef D.S.L2.dims (D.E2ᵀ *ᵥ (D.strongCurl *ᵥ u)) 0 i j l =
      cyc M (fun j => coef D.S.L1.dims (D.E1ᵀ *ᵥ u) 2 i j l) j - codeAx M L (fun l => coef D.S.L1.dims (D.E1ᵀ *ᵥ u) 1 i j l) l := by
    intro i hi j hj l hl
    rw [hg 0 i j l (by rw [h.d2]; exact (i0 _ _ _).mpr ⟨hi, hj, hl⟩), e0]; beta_reduce
    rw [c1 i j hj l, b2 i j l hl]
  have f1 : ∀ i < N - 1, ∀ j < M, ∀ l < L, coef D.S.L2.dims (D.E2ᵀ *ᵥ (D.strongCurl *ᵥ u)) 1 i j l =
      codeAx M L (fun l => coef D.S.L1.dims (D.E1ᵀ *ᵥ u) 0 i j l) l - codeRad N M (fun i => coef D.S.L1.dims (D.E1ᵀ *ᵥ u) 2 i j l) i := by
    intro i hi j hj l hl
    rw [hg 1 i j l (by rw [h.d2]; exact (i1 _ _ _).mpr ⟨hi, hj, hl⟩), e1]; beta_reduce
    rw [c0 i hi j l, a2 i j l hl]
  have f2 : ∀ i < N - 1, ∀ j < M, ∀ l < L, coef D.S.L2.dims (D.E2ᵀ *ᵥ (D.strongCurl *ᵥ u)) 2 i j l =
      codeRad N M (fun i => coef D.S.L1.dims (D.E1ᵀ *ᵥ u) 1 i j l) i - cyc M (fun j => coef D.S.L1.dims (D.E1ᵀ *ᵥ u) 0 i j l) j := by
    intro i hi j hj l hl
    rw [hg 2 i j l (by rw [h.d2]; exact (i2 _ _ _).mpr ⟨hi, hj, hl⟩), e2]; beta_reduce
    rw [b0 i hi j l, a1 i j hj l]
  constructor
  · intro h0
    have z : ∀ c i j l, coef D.S.L2.dims (D.E2ᵀ *ᵥ (D.strongCurl *ᵥ u)) c i j l = 0 := by
      intro c i j l; rw [h0, mulVec_zero]; unfold coef; split_ifs <;> rfl
    refine ⟨fun i hi j hj l hl => ?_, fun i hi j hj l hl => ?_, fun i hi j hj l hl => ?_⟩
    · exact sub_eq_zero.mp ((f0 i hi j hj l hl).symm.trans (z _ _ _ _))
    · exact sub_eq_zero.mp ((f1 i hi j hj l hl).symm.trans (z _ _ _ _))
    · exact sub_eq_zero.mp ((f2 i hi j hj l hl).symm.trans (z _ _ _ _))
  · rintro ⟨a, b, c⟩
    apply h.core.e2
    refine Seq.vec_zero_of_coef h.core.q.wf.f2.k _ fun c' i j l hin => ?_
    have hcc := hin.comp_lt
    rw [h.d2] at hin hcc
    simp [Dims.shape, dk] at hcc
    interval_cases c'
    · obtain ⟨x, y, z⟩ := (i0 _ _ _).mp hin
      rw [f0 i x j y l z, a i x j y l z, sub_self]
    · obtain ⟨x, y, z⟩ := (i1 _ _ _).mp hin
      rw [f1 i x j y l z, b i x j y l z, sub_self]
    · obtain ⟨x, y, z⟩ := (i2 _ _ _).mp hin
      rw [f2 i x j y l z, c i x j y l z, sub_self]

theorem div_arr (u : Fin D.m2 → ℝ) : ∀ i < N - 1, ∀ j < M, ∀ l < L, coef D.S.L3.dims (D.E3ᵀ *ᵥ (D.strongDiv *ᵥ u)) 0 i j l
    = codeRad N M (fun i => coef D.S.L2.dims (D.E2ᵀ *ᵥ u) 0 i j l) i + cyc M (fun j => coef D.S.L2.dims (D.E2ᵀ *ᵥ u) 1 i j l) j
      + codeAx M L (fun l => coef D.S.L2.dims (D.E2ᵀ *ᵥ u) 2 i j l) l := by
  intro i hi j hj l hl
  obtain ⟨a0, _, _⟩ := h.ops 2 _ h.d2 (coef D.S.L2.dims (D.E2ᵀ *ᵥ u) 0)
  obtain ⟨_, b1, _⟩ := h.ops 2 _ h.d2 (coef D.S.L2.dims (D.E2ᵀ *ᵥ u) 1)
  obtain ⟨_, _, c2⟩ := h.ops 2 _ h.d2 (coef D.S.L2.dims (D.E2ᵀ *ᵥ u) 2)
  rw [(h.core.div u).2 0 i j l (by rw [h.d3]; exact ((dk_in N M L).2.2.2.2.2.2.2 _ _ _ _).mpr ⟨rfl, hi, hj, hl⟩),
    code2 (d := D.S.L2.dims) (by rw [h.d2]; rfl)]
  beta_reduce
  rw [a0 i hi j l, b1 i j hj l, c2 i j l hl]

/-- Making forms from arrays. -/
theorem make0 {ψ : Nat → Nat → Nat → ℝ} (hψ : P0 polar dir N M L ψ) : ∃ x, ∀ i < N, ∀ j < M, ∀ l < L, coef D.S.L0.dims (D.E0ᵀ *ᵥ x) 0 i j l = ψ i j l := by
  obtain ⟨x, hx⟩ := h.mk0 (fun _ => ψ) ((conf0_iff _).mpr hψ)
  exact ⟨x, fun i hi j hj l hl => hx 0 i j l (((dk_in N M L).1 _ _ _ _).mpr ⟨rfl, hi, hj, hl⟩)⟩

theorem make1 {a0 a1 a2 : Nat → Nat → Nat → ℝ} (h01 : P1 polar dir N M L a0 a1) (h2 : P0 polar dir N M L a2) :
    ∃ x, (∀ i < N - 1, ∀ j < M, ∀ l < L, coef D.S.L1.dims (D.E1ᵀ *ᵥ x) 0 i j l = a0 i j l) ∧
      (∀ i < N, ∀ j < M, ∀ l < L, coef D.S.L1.dims (D.E1ᵀ *ᵥ x) 1 i j l = a1 i j l) ∧
      (∀ i < N, ∀ j < M, ∀ l < L, coef D.S.L1.dims (D.E1ᵀ *ᵥ x) 2 i j l = a2 i j l) := by
  obtain ⟨x, hx⟩ := h.mk1 (fun c => if c = 0 then a0 else if c = 1 then a1 else a2) ((conf1_iff _).mpr ⟨by simpa using h01, by simpa using h2⟩)
  obtain ⟨_, i0, i1, i2, _⟩ := dk_in N M L
  refine ⟨x, fun i hi j hj l hl => ?_, fun i hi j hj l hl => ?_, fun i hi j hj l hl => ?_⟩
  · rw [hx 0 i j l ((i0 _ _ _).mpr ⟨hi, hj, hl⟩)]; simp
  · rw [hx 1 i j l ((i1 _ _ _).mpr ⟨hi, hj, hl⟩)]; simp
  · rw [hx 2 i j l ((i2 _ _ _).mpr ⟨hi, hj, hl⟩)]; simp

theorem make2 {a0 a1 a2 : Nat → Nat → Nat → ℝ} (h01 : P2 polar dir N M L a0 a1) (h2 : P3 polar M L a2) :
    ∃ x, (∀ i < N, ∀ j < M, ∀ l < L, coef D.S.L2.dims (D.E2ᵀ *ᵥ x) 0 i j l = a0 i j l) ∧
      (∀ i < N - 1, ∀ j < M, ∀ l < L, coef D.S.L2.dims (D.E2ᵀ *ᵥ x) 1 i j l = a1 i j l) ∧
      (∀ i < N - 1, ∀ j < M, ∀ l < L, coef D.S.L2.dims (D.E2ᵀ *ᵥ x) 2 i j l = a2 i j l) := by
  obtain ⟨x, hx⟩ := h.mk2 (fun c => if c = 0 then a0 else if c = 1 then a1 else a2) ((conf2_iff _).mpr ⟨by simpa using h01, by simpa using h2⟩)
  obtain ⟨_, _, _, _, i0, i1, i2, _⟩ := dk_in N M L
  refine ⟨x, fun i hi j hj l hl => ?_, fun i hi j hj l hl => ?_, fun i hi j hj l hl => ?_⟩
  · rw [hx 0 i j l ((i0 _ _ _).mpr ⟨hi, hj, hl⟩)]; simp
  · rw [hx 1 i j l ((i1 _ _ _).mpr ⟨hi, hj, hl⟩)]; simp
  · rw [hx 2 i j l ((i2 _ _ _).mpr ⟨hi, hj, hl⟩)]; simp

theorem make3 {f : Nat → Nat → Nat → ℝ} (hf : P3 polar M L f) : ∃ x, ∀ i < N - 1, ∀ j < M, ∀ l < L, coef D.S.L3.dims (D.E3ᵀ *ᵥ x) 0 i j l = f i j l := by
  obtain ⟨x, hx⟩ := h.mk3 (fun _ => f) ((conf3_iff _).mpr hf)
  exact ⟨x, fun i hi j hj l hl => hx 0 i j l (((dk_in N M L).2.2.2.2.2.2.2 _ _ _ _).mpr ⟨rfl, hi, hj, hl⟩)⟩

/-! ## Degree 3 -/

/-- Radial profile of a 3-form. -/
noncomputable def tot3 (D : DeRham) (N M L : Nat) : (Fin D.m3 → ℝ) →ₗ[ℝ] (Fin (N - 1) → ℝ) where
  toFun u := fun i => ∑ l ∈ range L, ∑ j ∈ range M, coef D.S.L3.dims (D.E3ᵀ *ᵥ u) 0 i j l
  map_add' u v := by funext i; simp only [mulVec_add, coef_add, sum_add_distrib, Pi.add_apply]
  map_smul' a u := by funext i; simp only [mulVec_smul, coef_smul, ← mul_sum, Pi.smul_apply, smul_eq_mul, RingHom.id_apply]

theorem exf_tot3 (u : Fin D.m3 → ℝ) {i : Nat} (hi : i < N - 1) :
    exf (tot3 D N M L u) i = ∑ l ∈ range L, ∑ j ∈ range M, coef D.S.L3.dims (D.E3ᵀ *ᵥ u) 0 i j l :=
  exf_of (fun i => ∑ l ∈ range L, ∑ j ∈ range M, coef D.S.L3.dims (D.E3ᵀ *ᵥ u) 0 i j l) hi

/-- A profile of total zero is a divergence tangential to the rings. -/
theorem ring_div {f : Nat → Nat → Nat → ℝ} (hM : 1 ≤ M) (hL : 1 ≤ L) {i : Nat} (hf : ∑ l ∈ range L, ∑ j ∈ range M, f i j l = 0) :
    ∀ j < M, ∀ l < L, cyc M (fun j => ∑ k ∈ range j, (f i k l - if k = 0 then ∑ j ∈ range M, f i j l else 0)) j
      + codeAx M L (fun l => ∑ k ∈ range l, if j = 0 then ∑ j ∈ range M, f i j k else 0) l = f i j l := by
  intro j hj l hl
  have a := cyc_prim (M := M) (f := fun k => f i k l - if k = 0 then ∑ j ∈ range M, f i j l else 0) (by
    rw [sum_sub_distrib, sum_ite_eq' (range M) 0 (fun _ => ∑ j ∈ range M, f i j l), if_pos (mem_range.mpr (by omega)), sub_self]) hj 0
  simp only [add_zero] at a
  rw [a, codeAx_prim (M := M) (f := fun k => if j = 0 then ∑ j ∈ range M, f i j k else 0) (by
    split_ifs
    · exact hf
    · simp) hl]
  ring

theorem rank_div_all : D.m3 = D.strongDiv.rank + finrank ℝ ↥((G1 polar N).map ((F1 polar dir N).map (Rad N M)).mkQ) := by
  have hN := h.hN
  have hM := h.hM
  have hL := h.hL
  have hp := h.hp
  have key := finrank_ker_of' D.strongDiv.mulVecLin (0 : (Fin D.m3 → ℝ) →ₗ[ℝ] (Fin 0 → ℝ)) (((F1 polar dir N).map (Rad N M)).mkQ.comp (tot3 D N M L))
    ((G1 polar N).map ((F1 polar dir N).map (Rad N M)).mkQ) (by simp)
    (fun x => by
      rw [LinearMap.comp_apply, Submodule.mkQ_apply, Submodule.Quotient.mk_eq_zero, mulVecLin_apply]
      have hc := ((conf2_iff _).mp (h.conf2 x)).1
      refine ⟨_, P2.sum hN hp hM hc, ?_⟩
      refine exf_ext fun i hi => ?_
      rw [exf_Rad _ hi, h.exf_tot3 _ hi]
      rw [codeRad_congr hi (fun i hi => exf_of (fun i => ∑ l ∈ range L, ∑ j ∈ range M, coef D.S.L2.dims (D.E2ᵀ *ᵥ x) 0 i j l) hi)]
      rw [sum_congr rfl fun l hl => sum_congr rfl fun j hj => h.div_arr x i hi j (mem_range.mp hj) l (mem_range.mp hl)]
      simp only [sum_add_distrib]
      rw [sum_congr rfl fun l _ => sum_cyc (M := M) fun j => coef D.S.L2.dims (D.E2ᵀ *ᵥ x) 1 i j l,
        sum_comm (s := range L) (t := range M) (f := fun l j => codeAx M L (fun l => coef D.S.L2.dims (D.E2ᵀ *ᵥ x) 2 i j l) l),
        sum_congr rfl fun j _ => sum_codeAx hM hL fun l => coef D.S.L2.dims (D.E2ᵀ *ᵥ x) 2 i j l, codeRad_sum]
      simp only [codeRad_sum, sum_const_zero, add_zero])
    (fun w _ hΦ => by
      rw [LinearMap.comp_apply, Submodule.mkQ_apply, Submodule.Quotient.mk_eq_zero] at hΦ
      obtain ⟨φ, hφ, e⟩ := hΦ
      have hc := (conf3_iff _).mp (h.conf3 w)
      obtain ⟨f, hf⟩ : ∃ f, f = fun i j l => coef D.S.L3.dims (D.E3ᵀ *ᵥ w) 0 i j l - codeRad N M (fun i => exf φ i * (if j = 0 ∧ l = 0 then 1 else 0)) i :=
        ⟨_, rfl⟩
      have hz : ∀ i < N - 1, ∑ l ∈ range L, ∑ j ∈ range M, f i j l = 0 := by
        intro i hi
        rw [hf]
        simp only [sum_sub_distrib, codeRad_mul', ← mul_sum]
        have e' : exf (Rad N M φ) i = exf (tot3 D N M L w) i := by rw [e]
        rw [exf_Rad φ hi, h.exf_tot3 w hi] at e'
        have : ∑ l ∈ range L, ∑ j ∈ range M, (if j = 0 ∧ l = 0 then (1 : ℝ) else 0) = 1 := by
          rw [sum_eq_single 0, sum_eq_single 0]
          · simp
          · intro j _ hj; simp [hj]
          · intro hn; exact absurd (mem_range.mpr (by omega)) hn
          · intro l _ hl; simp [hl]
          · intro hn; exact absurd (mem_range.mpr (by omega)) hn
        rw [this, e', mul_one, sub_self]
      have f0 : polar = true → ∀ j < M, ∀ l < L, f 0 j l = 0 := by
        intro hpo j hj l hl
        have h3 := hp hpo
        obtain ⟨a, _, _⟩ := mem_F1.mp hφ
        rw [hf]
        beta_reduce
        rw [hc hpo j hj l hl, codeRad_mul']
        unfold codeRad
        rw [(a hpo).1, (a hpo).2, if_neg (show ¬ (0 + 2 = N ∧ N ≠ M) by omega)]
        simp
      have f0' : polar = true → ∀ l < L, ∑ j ∈ range M, f 0 j l = 0 := fun hpo l hl => sum_eq_zero fun j hj => f0 hpo j (mem_range.mp hj) l hl
      obtain ⟨x, x0, x1, x2⟩ := h.make2 (a0 := fun i j l => exf φ i * (if j = 0 ∧ l = 0 then 1 else 0))
        (a1 := fun i j l => ∑ k ∈ range j, (f i k l - if k = 0 then ∑ j ∈ range M, f i j l else 0))
        (a2 := fun i j l => ∑ k ∈ range l, if j = 0 then ∑ j ∈ range M, f i j k else 0)
        (P2.profile hN hφ (fun j l => if j = 0 ∧ l = 0 then 1 else 0) (fun hpo j hj l hl => by
          refine sum_eq_zero fun k hk => ?_
          rw [f0 hpo k (by have := mem_range.mp hk; omega) l hl, f0' hpo l hl, ite_self, sub_zero]))
        (fun hpo j hj l hl => by
          refine sum_eq_zero fun k hk => ?_
          rw [f0' hpo k (by have := mem_range.mp hk; omega), ite_self])
      refine ⟨x, ?_⟩
      rw [mulVecLin_apply]
      refine h.ext3 fun i hi j hj l hl => ?_
      rw [h.div_arr x i hi j hj l hl, codeRad_congr hi (fun i hi => x0 i hi j hj l hl), cyc_congr hj (fun j hj => x1 i hi j hj l hl),
        codeAx_congr hl (fun l hl => x2 i hi j hj l hl), add_assoc, h.ring_div hM hL (hz i hi) j hj l hl, hf]
      ring)
    (fun w _ => by
      refine ⟨tot3 D N M L w, ?_, rfl⟩
      have hc := (conf3_iff _).mp (h.conf3 w)
      show tot3 D N M L w ∈ G1 polar N
      rw [mem_G1]
      intro hpo
      have := hp hpo
      rw [h.exf_tot3 w (by omega)]
      exact sum_eq_zero fun l hl => sum_eq_zero fun j hj => hc hpo j (mem_range.mp hj) l (mem_range.mp hl))
    (fun t ht => by
      obtain ⟨g, hg, rfl⟩ := ht
      have hg' : g ∈ G1 polar N := hg
      obtain ⟨x, hx⟩ := h.make3 (f := fun i j l => exf g i * (if j = 0 ∧ l = 0 then 1 else 0)) (fun hpo j hj l hl => by
        beta_reduce; rw [mem_G1.mp hg' hpo, zero_mul])
      refine ⟨x, rfl, ?_⟩
      rw [LinearMap.comp_apply]
      congr 1
      refine exf_ext fun i hi => ?_
      rw [h.exf_tot3 x hi, sum_congr rfl fun l hl => sum_congr rfl fun j hj => hx i hi j (mem_range.mp hj) l (mem_range.mp hl)]
      rw [sum_eq_single 0, sum_eq_single 0]
      · simp
      · intro j _ hj; simp [hj]
      · intro hn; exact absurd (mem_range.mpr (by omega)) hn
      · intro l _ hl; simp [hl]
      · intro hn; exact absurd (mem_range.mpr (by omega)) hn)
  rw [LinearMap.ker_zero, finrank_top] at key
  simpa [Matrix.rank] using key

/-! ## Degree 1 -/

/-- Axial circulations, summed over the angle. -/
noncomputable def circZ (D : DeRham) (N M L : Nat) : (Fin D.m1 → ℝ) →ₗ[ℝ] (Fin N → ℝ) where
  toFun u := fun i => ∑ l ∈ range L, ∑ j ∈ range M, coef D.S.L1.dims (D.E1ᵀ *ᵥ u) 2 i j l
  map_add' u v := by funext i; simp only [mulVec_add, coef_add, sum_add_distrib, Pi.add_apply]
  map_smul' a u := by funext i; simp only [mulVec_smul, coef_smul, ← mul_sum, Pi.smul_apply, smul_eq_mul, RingHom.id_apply]

/-- Poloidal circulations of the first slice. -/
noncomputable def circT (D : DeRham) (N M : Nat) : (Fin D.m1 → ℝ) →ₗ[ℝ] (Fin N → ℝ) where
  toFun u := fun i => ∑ j ∈ range M, coef D.S.L1.dims (D.E1ᵀ *ᵥ u) 1 i j 0
  map_add' u v := by funext i; simp only [mulVec_add, coef_add, sum_add_distrib, Pi.add_apply]
  map_smul' a u := by funext i; simp only [mulVec_smul, coef_smul, ← mul_sum, Pi.smul_apply, smul_eq_mul, RingHom.id_apply]

/-- Radial components of the first slice, summed over the angle. -/
noncomputable def circR (D : DeRham) (N M : Nat) : (Fin D.m1 → ℝ) →ₗ[ℝ] (Fin (N - 1) → ℝ) where
  toFun u := fun i => ∑ j ∈ range M, coef D.S.L1.dims (D.E1ᵀ *ᵥ u) 0 i j 0
  map_add' u v := by funext i; simp only [mulVec_add, coef_add, sum_add_distrib, Pi.add_apply]
  map_smul' a u := by funext i; simp only [mulVec_smul, coef_smul, ← mul_sum, Pi.smul_apply, smul_eq_mul, RingHom.id_apply]

theorem exf_circ (u : Fin D.m1 → ℝ) :
    (∀ i < N, exf (circZ D N M L u) i = ∑ l ∈ range L, ∑ j ∈ range M, coef D.S.L1.dims (D.E1ᵀ *ᵥ u) 2 i j l) ∧
    (∀ i < N, exf (circT D N M u) i = ∑ j ∈ range M, coef D.S.L1.dims (D.E1ᵀ *ᵥ u) 1 i j 0) ∧
    (∀ i < N - 1, exf (circR D N M u) i = ∑ j ∈ range M, coef D.S.L1.dims (D.E1ᵀ *ᵥ u) 0 i j 0) :=
  ⟨fun i hi => exf_of (fun i => ∑ l ∈ range L, ∑ j ∈ range M, coef D.S.L1.dims (D.E1ᵀ *ᵥ u) 2 i j l) hi,
   fun i hi => exf_of (fun i => ∑ j ∈ range M, coef D.S.L1.dims (D.E1ᵀ *ᵥ u) 1 i j 0) hi,
   fun i hi => exf_of (fun i => ∑ j ∈ range M, coef D.S.L1.dims (D.E1ᵀ *ᵥ u) 0 i j 0) hi⟩

/-- A curl-free field without circulations, radially exact on average, is a gradient. -/
theorem exact1_all (u : Fin D.m1 → ℝ) (hu : D.strongCurl *ᵥ u = 0) (hz : circZ D N M L u = 0) (ht : circT D N M u = 0)
    (φ : Fin N → ℝ) (hφ : φ ∈ F0 polar dir N) (hr : Rad N M φ = circR D N M u) : ∃ x, D.strongGrad *ᵥ x = u := by
  have hN := h.hN
  have hM := h.hM
  have hL := h.hL
  have hp := h.hp
  have hM0 : (M : ℝ) ≠ 0 := by positivity
  obtain ⟨q1, q2⟩ := (conf1_iff _).mp (h.conf1 u)
  obtain ⟨c0, c1, c2⟩ := (h.curl_arr u).mp hu
  obtain ⟨s2, s1, s0⟩ := h.exf_circ u
  rw [hz] at s2
  rw [ht] at s1
  rw [← hr] at s0
  obtain ⟨a0, e0⟩ : ∃ a, a = coef D.S.L1.dims (D.E1ᵀ *ᵥ u) 0 := ⟨_, rfl⟩
  obtain ⟨a1, e1⟩ : ∃ a, a = coef D.S.L1.dims (D.E1ᵀ *ᵥ u) 1 := ⟨_, rfl⟩
  obtain ⟨a2, e2⟩ : ∃ a, a = coef D.S.L1.dims (D.E1ᵀ *ᵥ u) 2 := ⟨_, rfl⟩
  simp only [← e0, ← e1, ← e2] at q1 q2 c0 c1 c2 s2 s1 s0
  -- axial circulations
  have g : ∀ i < N, ∀ j < M, ∑ l ∈ range L, a2 i j l = 0 := by
    intro i hi
    have cz : ∀ j < M, ∑ l ∈ range L, a2 i j l = ∑ l ∈ range L, a2 i 0 l := by
      refine Arr.const_cyclic (f := fun j => ∑ l ∈ range L, a2 i j l) fun j hj => ?_
      rw [← sum_sub_distrib]
      have := sum_congr rfl fun l hl => c0 i hi j hj l (mem_range.mp hl)
      rw [sum_codeAx hM hL] at this
      exact this
    have t := s2 i hi
    rw [exf_zero, sum_comm, sum_congr rfl fun j hj => cz j (mem_range.mp hj), sum_const, card_range, nsmul_eq_mul] at t
    intro j hj
    rw [cz j hj]
    rcases mul_eq_zero.mp t.symm with t | t
    · exact absurd t hM0
    · exact t
  -- poloidal circulations
  have p : ∀ i < N, ∑ j ∈ range M, a1 i j 0 = 0 := fun i hi => by rw [← s1 i hi, exf_zero]
  -- the potential
  obtain ⟨x, hx⟩ := h.make0 ((q2.prim.add (q1.tprim (fun e => (hp e).2) hM hL)).add
    (P0.profile (M := M) (L := L) hN (fun e => (hp e).1) hφ (fun l => cutz M l / M)))
  obtain ⟨g0, g1, g2⟩ := h.grad_arr x
  have z0 : cutz M 0 = 1 := by unfold cutz; rw [if_pos (by omega)]
  have kz : ∀ l < L, codeAx M L (fun l => cutz M l) l = 0 := (codeAx_zero_iff hM _).mpr fun l hl => by rw [z0, one_mul]
  refine ⟨x, h.ext1 (fun i hi j hj l hl => ?_) (fun i hi j hj l hl => ?_) (fun i hi j hj l hl => ?_)⟩
  · -- radial
    rw [g0 i hi j hj l hl, codeRad_congr hi (fun i hi => hx i hi j hj l hl), ← e0]
    have k1 : ∀ l < L, codeRad N M (fun i => ∑ k ∈ range l, a2 i j k) i = a0 i j l - a0 i j 0 * cutz M l := by
      have : ∀ l < L, (a0 i j l - ∑ k ∈ range l, codeRad N M (fun i => a2 i j k) i) = (a0 i j 0 - 0) * cutz M l := by
        refine (codeAx_zero_iff hM (fun l => a0 i j l - ∑ k ∈ range l, codeRad N M (fun i => a2 i j k) i)).mp fun l hl => ?_
        rw [codeAx_sub, codeAx_prim (f := fun k => codeRad N M (fun i => a2 i j k) i) (by
          rw [← codeRad_sum, codeRad_congr hi (fun i hi => g i hi j hj), codeRad_zero']) hl, c1 i hi j hj l hl, sub_self]
      intro l hl
      rw [codeRad_sum]
      have := this l hl
      linarith
    have k2 : codeRad N M (fun i => tprim M (fun i j => a1 i j 0) i j) i = a0 i j 0 - (∑ j ∈ range M, a0 i j 0) / M := by
      have cc : ∀ j < M, codeRad N M (fun i => tprim M (fun i j => a1 i j 0) i j) i - a0 i j 0
          = codeRad N M (fun i => tprim M (fun i j => a1 i j 0) i 0) i - a0 i 0 0 := by
        refine Arr.const_cyclic (f := fun j => codeRad N M (fun i => tprim M (fun i j => a1 i j 0) i j) i - a0 i j 0) fun j hj => ?_
        have t := c2 i hi j hj 0 (by omega)
        have t2 : codeRad N M (fun i => tprim M (fun i j => a1 i j 0) i ((j + 1) % M)) i - codeRad N M (fun i => tprim M (fun i j => a1 i j 0) i j) i
            = codeRad N M (fun i => a1 i j 0) i := by
          rw [← codeRad_sub]
          exact codeRad_congr hi fun i hi => cyc_prim (f := fun j => a1 i j 0) (p i hi) hj _
        unfold cyc at t
        linarith
      have sm : ∑ j ∈ range M, codeRad N M (fun i => tprim M (fun i j => a1 i j 0) i j) i = 0 := by
        rw [← codeRad_sum, codeRad_congr hi (fun i hi => sum_tprim hM _ i), codeRad_zero']
      have tot := sum_congr rfl fun j hj => cc j (mem_range.mp hj)
      rw [sum_sub_distrib, sm, sum_const, card_range, nsmul_eq_mul] at tot
      have := cc j hj
      field_simp
      rw [show codeRad N M (fun i => tprim M (fun i j => a1 i j 0) i j) i = a0 i j 0 + (codeRad N M (fun i => tprim M (fun i j => a1 i j 0) i 0) i - a0 i 0 0) by linarith]
      linarith
    have k3 : codeRad N M (exf φ) i = ∑ j ∈ range M, a0 i j 0 := by rw [← exf_Rad φ hi, s0 i hi]
    rw [codeRad_add, codeRad_add, k1 l hl, codeRad_mul', codeRad_mul', k2, k3]
    field_simp; ring
  · -- poloidal
    rw [g1 i hi j hj l hl, cyc_congr hj (fun j hj => hx i hi j hj l hl), ← e1]
    have k1 : ∀ l < L, (a1 i j l - ∑ k ∈ range l, cyc M (fun j => a2 i j k) j) = (a1 i j 0 - 0) * cutz M l := by
      refine (codeAx_zero_iff hM (fun l => a1 i j l - ∑ k ∈ range l, cyc M (fun j => a2 i j k) j)).mp fun l hl => ?_
      rw [codeAx_sub, codeAx_prim (f := fun k => cyc M (fun j => a2 i j k) j) (by
        unfold cyc
        rw [sum_sub_distrib, g i hi _ (Nat.mod_lt _ (by omega)), g i hi j hj, sub_self]) hl, c0 i hi j hj l hl, sub_self]
    have t := k1 l hl
    have t2 := cyc_prim (f := fun j => a1 i j 0) (p i hi) hj (-((∑ j ∈ range M, ∑ k ∈ range j, a1 i k 0) / M))
    have t3 : tprim M (fun i j => a1 i j 0) i ((j + 1) % M) - tprim M (fun i j => a1 i j 0) i j = a1 i j 0 := t2
    unfold cyc at t ⊢
    rw [sum_sub_distrib] at t
    beta_reduce
    have t4 := congrArg (· * cutz M l) t3
    beta_reduce at t4
    linarith
  · -- axial
    rw [g2 i hi j hj l hl, codeAx_congr hl (fun l hl => hx i hi j hj l hl), ← e2]
    rw [codeAx_add, codeAx_add, codeAx_prim (g i hi j hj) hl, codeAx_smul, codeAx_smul, kz l hl]
    have : codeAx M L (fun l => cutz M l / M) l = 0 := by
      have := codeAx_mul M L (fun l => cutz M l) ((M : ℝ)⁻¹) l
      rw [kz l hl, zero_mul] at this
      exact this
    rw [this]; ring

theorem ker_curl_all : finrank ℝ (LinearMap.ker D.strongCurl.mulVecLin) = D.strongGrad.rank + (finrank ℝ ↥(LinearMap.ker (Rad N M) ⊓ F0 polar dir N) +
    (finrank ℝ ↥(LinearMap.ker (Rad N M) ⊓ F1 polar dir N) + finrank ℝ ↥((G1 polar N).map ((F0 polar dir N).map (Rad N M)).mkQ))) := by
  have hN := h.hN
  have hM := h.hM
  have hL := h.hL
  have hp := h.hp
  have hM0 : (M : ℝ) ≠ 0 := by positivity
  have key := finrank_ker_of' D.strongGrad.mulVecLin D.strongCurl.mulVecLin
    ((circZ D N M L).prod ((circT D N M).prod (((F0 polar dir N).map (Rad N M)).mkQ.comp (circR D N M))))
    ((LinearMap.ker (Rad N M) ⊓ F0 polar dir N).prod ((LinearMap.ker (Rad N M) ⊓ F1 polar dir N).prod ((G1 polar N).map ((F0 polar dir N).map (Rad N M)).mkQ)))
    (fun x => by rw [mulVecLin_apply, mulVecLin_apply, mulVec_mulVec, h.core.curl_grad, zero_mulVec])
    (fun x => by
      obtain ⟨g0, g1, g2⟩ := h.grad_arr x
      have hc := (conf0_iff _).mp (h.conf0 x)
      obtain ⟨s2, s1, s0⟩ := h.exf_circ (D.strongGrad *ᵥ x)
      rw [mulVecLin_apply]
      simp only [LinearMap.prod_apply, Function.prod, LinearMap.comp_apply, Prod.mk_eq_zero]
      refine ⟨exf_ext fun i hi => ?_, exf_ext fun i hi => ?_, ?_⟩
      · rw [s2 i hi, exf_zero, sum_comm]
        refine sum_eq_zero fun j hj => ?_
        rw [sum_congr rfl fun l hl => g2 i hi j (mem_range.mp hj) l (mem_range.mp hl), sum_codeAx hM hL]
      · rw [s1 i hi, exf_zero, sum_congr rfl fun j hj => g1 i hi j (mem_range.mp hj) 0 (by omega), sum_cyc]
      · rw [Submodule.mkQ_apply, Submodule.Quotient.mk_eq_zero]
        refine ⟨_, P0.sum hN hp hM hc (show 0 < L by omega), ?_⟩
        refine exf_ext fun i hi => ?_
        rw [exf_Rad _ hi, s0 i hi, codeRad_congr hi (fun i hi => exf_of (fun i => ∑ j ∈ range M, coef D.S.L0.dims (D.E0ᵀ *ᵥ x) 0 i j 0) hi), codeRad_sum]
        exact sum_congr rfl fun j hj => (g0 i hi j (mem_range.mp hj) 0 (by omega)).symm)
    (fun u hu hΦ => by
      simp only [LinearMap.prod_apply, Function.prod, LinearMap.comp_apply, Prod.mk_eq_zero] at hΦ
      obtain ⟨a, b, c⟩ := hΦ
      rw [Submodule.mkQ_apply, Submodule.Quotient.mk_eq_zero] at c
      obtain ⟨φ, hφ, e⟩ := c
      exact h.exact1_all u hu a b φ hφ e)
    (fun u hu => by
      rw [mulVecLin_apply] at hu
      obtain ⟨c0, c1, c2⟩ := (h.curl_arr u).mp hu
      obtain ⟨q1, q2⟩ := (conf1_iff _).mp (h.conf1 u)
      obtain ⟨s2, s1, s0⟩ := h.exf_circ u
      refine ⟨⟨?_, ?_⟩, ⟨?_, ?_⟩, ?_⟩
      · show Rad N M (circZ D N M L u) = 0
        rw [Rad_zero]
        intro i hi
        rw [codeRad_congr hi s2, codeRad_sum]
        simp only [codeRad_sum]
        rw [sum_comm]
        refine sum_eq_zero fun j hj => ?_
        rw [sum_congr rfl fun l hl => (c1 i hi j (mem_range.mp hj) l (mem_range.mp hl)).symm, sum_codeAx hM hL]
      · show circZ D N M L u ∈ F0 polar dir N
        have : circZ D N M L u = ∑ l ∈ range L, fun i : Fin N => ∑ j ∈ range M, coef D.S.L1.dims (D.E1ᵀ *ᵥ u) 2 i j l := by
          funext i; rw [Finset.sum_apply]; rfl
        rw [this]
        exact Submodule.sum_mem _ fun l hl => P0.sum hN hp hM q2 (mem_range.mp hl)
      · show Rad N M (circT D N M u) = 0
        rw [Rad_zero]
        intro i hi
        rw [codeRad_congr hi s1, codeRad_sum, sum_congr rfl fun j hj => c2 i hi j (mem_range.mp hj) 0 (by omega), sum_cyc]
      · exact P1.sum1 hN hp hM q1 (show 0 < L by omega)
      · exact ⟨_, P1.sum0 hp q1 (show 0 < L by omega), rfl⟩)
    (fun t ht => by
      obtain ⟨tz, tt, tr⟩ := t
      obtain ⟨⟨z1, z2⟩, ⟨t1, t2⟩, g, hg, hgt⟩ := ht
      have z1 : Rad N M tz = 0 := z1
      have z2 : tz ∈ F0 polar dir N := z2
      have t1 : Rad N M tt = 0 := t1
      have t2 : tt ∈ F1 polar dir N := t2
      have hg : g ∈ G1 polar N := hg
      have c0 : cutz M 0 = 1 := by unfold cutz; rw [if_pos (by omega)]
      have kz : ∀ l < L, codeAx M L (fun l => cutz M l) l = 0 := (codeAx_zero_iff hM _).mpr fun l hl => by rw [c0, one_mul]
      obtain ⟨x, x0, x1, x2⟩ := h.make1 (P1.profile (M := M) (L := L) hN t2 hg (fun j l => if j = 0 then cutz M l else 0) (fun j l => (M : ℝ)⁻¹ * cutz M l))
        (P0.profile (M := M) (L := L) hN (fun e => (hp e).1) z2 (fun l => if l = 0 then (M : ℝ)⁻¹ else 0))
      obtain ⟨s2, s1, s0⟩ := h.exf_circ x
      refine ⟨x, ?_, ?_⟩
      · rw [mulVecLin_apply, h.curl_arr]
        refine ⟨fun i hi j hj l hl => ?_, fun i hi j hj l hl => ?_, fun i hi j hj l hl => ?_⟩
        · rw [cyc_congr hj (fun j hj => x2 i hi j hj l hl), codeAx_congr hl (fun l hl => x1 i hi j hj l hl), codeAx_smul]
          unfold cyc
          by_cases hj0 : j = 0
          · simp only [if_pos hj0]; rw [kz l hl]; ring
          · simp only [if_neg hj0]; rw [codeAx_zero']; ring
        · rw [codeRad_congr hi (fun i hi => x2 i hi j hj l hl), codeAx_congr hl (fun l hl => x0 i hi j hj l hl), codeAx_smul, codeAx_smul, kz l hl,
            codeRad_mul', (Rad_zero tz).mp z1 i hi]
          ring
        · rw [codeRad_congr hi (fun i hi => x1 i hi j hj l hl), cyc_congr hj (fun j hj => x0 i hi j hj l hl), codeRad_mul', (Rad_zero tt).mp t1 i hi]
          unfold cyc
          ring
      · simp only [LinearMap.prod_apply, Function.prod, LinearMap.comp_apply]
        refine Prod.ext ?_ (Prod.ext ?_ ?_)
        · refine exf_ext fun i hi => ?_
          dsimp only
          rw [s2 i hi, sum_congr rfl fun l hl => sum_congr rfl fun j hj => x2 i hi j (mem_range.mp hj) l (mem_range.mp hl)]
          simp only [sum_const, card_range, nsmul_eq_mul, ← mul_sum]
          rw [sum_ite_eq' (range L) 0 (fun _ => (M : ℝ)⁻¹), if_pos (mem_range.mpr (by omega))]
          field_simp
        · refine exf_ext fun i hi => ?_
          dsimp only
          rw [s1 i hi, sum_congr rfl fun j hj => x1 i hi j (mem_range.mp hj) 0 (by omega), ← mul_sum, sum_ite_eq' (range M) 0 (fun _ => cutz M 0),
            if_pos (mem_range.mpr (by omega)), c0, mul_one]
        · dsimp only
          refine Eq.trans ?_ hgt
          congr 1
          refine exf_ext fun i hi => ?_
          rw [s0 i hi, sum_congr rfl fun j hj => x0 i hi j (mem_range.mp hj) 0 (by omega), sum_const, card_range, nsmul_eq_mul, c0]
          field_simp)
  rw [key]
  have e : ∀ {A B : Type} [AddCommGroup A] [Module ℝ A] [AddCommGroup B] [Module ℝ B] [FiniteDimensional ℝ A] [FiniteDimensional ℝ B]
      (p : Submodule ℝ A) (q : Submodule ℝ B), finrank ℝ ↥(p.prod q) = finrank ℝ p + finrank ℝ q := by
    intro A B _ _ _ _ _ _ p q
    rw [← finrank_prod]
    exact LinearEquiv.finrank_eq
      { toFun := fun x => (⟨x.1.1, x.2.1⟩, ⟨x.1.2, x.2.2⟩)
        invFun := fun x => ⟨(x.1.1, x.2.1), x.1.2, x.2.2⟩
        map_add' := fun _ _ => rfl
        map_smul' := fun _ _ => rfl
        left_inv := fun _ => rfl
        right_inv := fun _ => rfl }
  rw [e, e]; rfl

end Cw
end Mrx
