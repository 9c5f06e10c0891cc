import Verif.Proofs.Case
import Verif.Proofs.AllSizes
import Verif.Props.Harmonic
import Verif.Proofs.Exists

/-!
# C73 for all resolutions: where the numbers of harmonic fields are not the Betti numbers
-/

set_option linter.unusedSectionVars false
set_option linter.unusedVariables false

namespace Mrx
open Finset Jax Spec Matrix Quad Props Module

theorem codeRad_mul (N M : Nat) (f : Nat → ℝ) (a : ℝ) (i : Nat) : codeRad N M (fun i => f i * a) i = codeRad N M f i * a := by
  unfold codeRad; split_ifs <;> ring

/-- Cut-off of the axial profile of the kernel. -/
def zcut (M l : Nat) : ℝ := if l < M then 1 else 0

namespace Cw
variable {D : DeRham} {polar dir : Bool} {N M L : Nat} (h : Cw D polar dir N M L)
include h

theorem ext0 {u v : Fin D.m0 → ℝ} (e : ∀ i < N, ∀ j < M, ∀ l < L, coef D.S.L0.dims (D.E0ᵀ *ᵥ u) 0 i j l = coef D.S.L0.dims (D.E0ᵀ *ᵥ v) 0 i j l) :
    u = v := by
  have : D.E0ᵀ *ᵥ u = D.E0ᵀ *ᵥ v := by
    refine ext_coef (by rw [h.d0]; simp [dk, Dims.validDegree]) fun c i j l hin => ?_
    rw [h.d0] at hin
    obtain ⟨rfl, a, b, c⟩ := ((dk_in N M L).1 _ _ _ _).mp hin
    exact e i a j b l c
  have := h.core.e0 (u - v) (by rw [mulVec_sub, this, sub_self])
  exact sub_eq_zero.mp this

/-- The kernel of the discrete gradient, for all sizes. -/
theorem ker_grad_iff (u : Fin D.m0 → ℝ) : D.strongGrad *ᵥ u = 0 ↔
    (∀ i < N - 1, codeRad N M (fun i => coef D.S.L0.dims (D.E0ᵀ *ᵥ u) 0 i 0 0) i = 0) ∧
    ∀ i < N, ∀ j < M, ∀ l < L, coef D.S.L0.dims (D.E0ᵀ *ᵥ u) 0 i j l = coef D.S.L0.dims (D.E0ᵀ *ᵥ u) 0 i 0 0 * zcut M l := by
  have hg := (h.core.grad u).2
  obtain ⟨C, hC⟩ : ∃ C, C = coef D.S.L0.dims (D.E0ᵀ *ᵥ u) := ⟨_, rfl⟩
  rw [← hC] at hg ⊢
  obtain ⟨e0, e1, e2⟩ := code0 (d := D.S.L0.dims) (by rw [h.d0]; rfl) C
  have n1 : D.S.L0.dims.nr = N := by rw [h.d0]; rfl
  have n2 : D.S.L0.dims.nt = M := by rw [h.d0]; rfl
  have n3 : D.S.L0.dims.nz = L := by rw [h.d0]; rfl
  have m1 : D.S.L0.dims.dr = N - 1 := by rw [h.d0]; rfl
  have m2 : D.S.L0.dims.dt = M := by rw [h.d0]; rfl
  have m3 : D.S.L0.dims.dz = L := by rw [h.d0]; rfl
  have hN := h.hN
  have hM := h.hM
  have hL := h.hL
  obtain ⟨_, i0, i1, i2, _⟩ := dk_in N M L
  have key : D.strongGrad *ᵥ u = 0 ↔ (∀ i < N - 1, ∀ j < M, ∀ l < L, dR D.S.L0.dims (C 0) i j l = 0) ∧
      (∀ i < N, ∀ j < M, ∀ l < L, dT D.S.L0.dims (C 0) i j l = 0) ∧ (∀ i < N, ∀ j < M, ∀ l < L, dZ D.S.L0.dims (C 0) i j l = 0) := by
    constructor
    · intro h0
      have z : ∀ c i j l, coef D.S.L1.dims (D.E1ᵀ *ᵥ (D.strongGrad *ᵥ u)) c i j l = 0 := by
        intro c i j l; rw [h0, mulVec_zero]; unfold coef; split_ifs <;> rfl
      refine ⟨fun i hi j hj l hl => ?_, fun i hi j hj l hl => ?_, fun i hi j hj l hl => ?_⟩
      · rw [← z 0 i j l, hg 0 i j l (by rw [h.d1]; exact (i0 _ _ _).mpr ⟨hi, hj, hl⟩), e0]
      · rw [← z 1 i j l, hg 1 i j l (by rw [h.d1]; exact (i1 _ _ _).mpr ⟨hi, hj, hl⟩), e1]
      · rw [← z 2 i j l, hg 2 i j l (by rw [h.d1]; exact (i2 _ _ _).mpr ⟨hi, hj, hl⟩), e2]
    · rintro ⟨a, b, c⟩
      apply h.core.e1
      refine Seq.vec_zero_of_coef h.core.q.wf.f1.k _ fun c' i j l hin => ?_
      rw [hg c' i j l hin]
      have hcc := hin.comp_lt
      rw [h.d1] at hin hcc
      simp [Dims.shape, dk] at hcc
      interval_cases c'
      · obtain ⟨x, y, z⟩ := (i0 _ _ _).mp hin
        rw [e0]; exact a i x j y l z
      · obtain ⟨x, y, z⟩ := (i1 _ _ _).mp hin
        rw [e1]; exact b i x j y l z
      · obtain ⟨x, y, z⟩ := (i2 _ _ _).mp hin
        rw [e2]; exact c i x j y l z
  rw [key]
  have hZ : ∀ i j, (∀ l < L, dZ D.S.L0.dims (C 0) i j l = 0) ↔ ∀ l < L, C 0 i j l = C 0 i j 0 * zcut M l := by
    intro i j
    have := dZ_zero_iff D.S.L0.dims (by rw [m3, n3]) (by rw [n2]; exact hM) (C 0) i j
    rw [n3, n2] at this
    rw [this]
    unfold zcut
    constructor <;> intro hh l hl <;> rw [hh l hl] <;> split_ifs <;> simp
  have hT : ∀ i j l, j < M → dT D.S.L0.dims (C 0) i j l = C 0 i ((j + 1) % M) l - C 0 i j l := by
    intro i j l hj
    have := dT_periodic D.S.L0.dims (by rw [m2, n2]) (C 0) i j l (by rw [n2]; exact hj)
    rw [n2] at this; exact this
  have hR : ∀ i j l, i < N - 1 → dR D.S.L0.dims (C 0) i j l = codeRad N M (fun i => C 0 i j l) i := by
    intro i j l hi
    have := dR_codeRad D.S.L0.dims (by rw [n1]; exact hN) (by rw [m1, n1]) (C 0) i j l (by rw [m1]; exact hi)
    rw [n1, n2] at this; exact this
  constructor
  · rintro ⟨a, b, c⟩
    refine ⟨fun i hi => ?_, fun i hi j hj l hl => ?_⟩
    · rw [← hR i 0 0 hi]; exact a i hi 0 (by omega) 0 (by omega)
    · rw [(hZ i j).mp (fun l hl => c i hi j hj l hl) l hl]
      rw [Arr.const_cyclic (f := fun j => C 0 i j 0) (fun j hj => by rw [← hT i j 0 hj]; exact b i hi j hj 0 (by omega)) j hj]
  · rintro ⟨a, b⟩
    have b' : ∀ i < N, ∀ j < M, C 0 i j 0 = C 0 i 0 0 := by
      intro i hi j hj
      rw [b i hi j hj 0 (by omega)]; simp [zcut]; omega
    refine ⟨fun i hi j hj l hl => ?_, fun i hi j hj l hl => ?_, fun i hi j hj => ?_⟩
    · rw [hR i j l hi]
      have : codeRad N M (fun i => C 0 i j l) i = codeRad N M (fun i => C 0 i 0 0 * zcut M l) i := by
        unfold codeRad
        beta_reduce
        rw [b (i + 1) (by omega) j hj l hl, b i (by omega) j hj l hl, b (N - 1) (by omega) j hj l hl]
      rw [this, codeRad_mul, a i hi, zero_mul]
    · rw [hT i j l hj, b i hi _ (Nat.mod_lt _ (by omega)) l hl, b i hi j hj l hl, sub_self]
    · rw [hZ i j]
      intro l hl
      rw [b' i hi j hj]; exact b i hi j hj l hl

/-- Existence of 0-forms with a given radial profile. -/
theorem profile (f : Nat → ℝ) (h1 : polar = true → f 1 = f 0) (h2 : dir = true → f (N - 1) = 0) (h3 : polar = false → dir = true → f 0 = 0) :
    ∃ u : Fin D.m0 → ℝ, ∀ i < N, ∀ j < M, ∀ l < L, coef D.S.L0.dims (D.E0ᵀ *ᵥ u) 0 i j l = f i * zcut M l := by
  obtain ⟨u, hu⟩ := h.mk0 (fun _ i _ l => f i * zcut M l) (by
    unfold Conf
    split_ifs with hp
    · unfold PolarForm
      rw [if_pos rfl]
      refine ⟨⟨fun l => f 0 * zcut M l, fun _ => 0, fun _ => 0, fun j _ l _ => ⟨rfl, ?_⟩⟩, fun hd j _ l _ => ?_⟩
      · beta_reduce; rw [h1 hp]; ring
      · beta_reduce; rw [h2 hd, zero_mul]
    · intro hd c i j l hin _ hi
      rcases hi with rfl | hi
      · beta_reduce; rw [h3 (by simpa using hp) hd, zero_mul]
      · beta_reduce; rw [show i = N - 1 by omega, h2 hd, zero_mul])
  exact ⟨u, fun i hi j hj l hl => hu 0 i j l (((dk_in N M L).1 _ _ _ _).mpr ⟨rfl, hi, hj, hl⟩)⟩

/-- What the boundary conditions say about the radial profile of an element of the kernel. -/
theorem conf_profile (u : Fin D.m0 → ℝ) (hu : D.strongGrad *ᵥ u = 0) :
    (dir = true → coef D.S.L0.dims (D.E0ᵀ *ᵥ u) 0 (N - 1) 0 0 = 0) ∧
    (polar = false → dir = true → coef D.S.L0.dims (D.E0ᵀ *ᵥ u) 0 0 0 0 = 0) := by
  have hM := h.hM
  have hL := h.hL
  have hN := h.hN
  have hc := h.conf0 u
  unfold Conf at hc
  constructor
  · intro hd
    split_ifs at hc with hp
    · unfold PolarForm at hc
      rw [if_pos rfl] at hc
      exact hc.2 hd 0 (by omega) 0 (by omega)
    · exact hc hd 0 (N - 1) 0 0 (((dk_in N M L).1 _ _ _ _).mpr ⟨rfl, by omega, by omega, by omega⟩) rfl (Or.inr (by omega))
  · intro hp hd
    rw [if_neg (by simp [hp])] at hc
    exact hc hd 0 0 0 0 (((dk_in N M L).1 _ _ _ _).mpr ⟨rfl, by omega, by omega, by omega⟩) rfl (Or.inl rfl)

/-- The radial profile of the kernel has two free values. -/
theorem kernel_values {u v : Fin D.m0 → ℝ} (hu : D.strongGrad *ᵥ u = 0) (hv : D.strongGrad *ᵥ v = 0)
    (e0 : coef D.S.L0.dims (D.E0ᵀ *ᵥ u) 0 0 0 0 = coef D.S.L0.dims (D.E0ᵀ *ᵥ v) 0 0 0 0)
    (e1 : coef D.S.L0.dims (D.E0ᵀ *ᵥ u) 0 (N - 1) 0 0 = coef D.S.L0.dims (D.E0ᵀ *ᵥ v) 0 (N - 1) 0 0) : u = v := by
  have hN := h.hN
  obtain ⟨a, b⟩ := (h.ker_grad_iff u).mp hu
  obtain ⟨a', b'⟩ := (h.ker_grad_iff v).mp hv
  obtain ⟨p1, p2, p3⟩ := (codeRad_zero_iff h.hN h.hM _).mp a
  obtain ⟨q1, q2, q3⟩ := (codeRad_zero_iff h.hN h.hM _).mp a'
  beta_reduce at p1 p2 p3 q1 q2 q3
  refine h.ext0 fun i hi j hj l hl => ?_
  rw [b i hi j hj l hl, b' i hi j hj l hl]
  congr 1
  rcases Nat.lt_or_ge i (N - 1) with hi' | hi'
  · rcases Nat.lt_trichotomy N M with e | e | e
    · rw [p2 e i hi', q2 e i hi']
    · rw [p1 e i hi, q1 e i hi, e0]
    · rcases Nat.lt_or_ge i M with hm | hm
      · rw [(p3 e).1 i hm, (q3 e).1 i hm, e0]
      · rw [(p3 e).2 i hm hi', (q3 e).2 i hm hi']
  · rw [show i = N - 1 by omega, e1]

end Cw

namespace Props
open DeRham

section
variable {ns ps : Nat × Nat × Nat} {q : Nat} {types : String × String × String} {F : V3 → V3} {polar dirichlet : Bool} {D : DeRham}

/-- A subspace described by one or two values. -/
theorem finrank_two {n : Nat} (K : Submodule ℝ (Fin n → ℝ)) (φ : (Fin n → ℝ) →ₗ[ℝ] ℝ × ℝ) (hinj : ∀ u ∈ K, φ u = 0 → u = 0)
    (hsurj : ∀ a, ∃ u ∈ K, φ u = a) : finrank ℝ K = 2 := by
  have e : finrank ℝ K = finrank ℝ (ℝ × ℝ) := by
    refine LinearEquiv.finrank_eq (LinearEquiv.ofBijective (φ.domRestrict K) ⟨?_, ?_⟩)
    · rw [← LinearMap.ker_eq_bot, LinearMap.ker_eq_bot']
      rintro ⟨u, hu⟩ h0
      have := hinj u hu h0
      exact Subtype.ext this
    · intro a
      obtain ⟨u, hu, e⟩ := hsurj a
      exact ⟨⟨u, hu⟩, e⟩
  rw [e]; simp

theorem finrank_one {n : Nat} (K : Submodule ℝ (Fin n → ℝ)) (φ : (Fin n → ℝ) →ₗ[ℝ] ℝ) (hinj : ∀ u ∈ K, φ u = 0 → u = 0)
    (hsurj : ∃ u ∈ K, φ u = 1) : finrank ℝ K = 1 := by
  have e : finrank ℝ K = finrank ℝ ℝ := by
    refine LinearEquiv.finrank_eq (LinearEquiv.ofBijective (φ.domRestrict K) ⟨?_, ?_⟩)
    · rw [← LinearMap.ker_eq_bot, LinearMap.ker_eq_bot']
      rintro ⟨u, hu⟩ h0
      have := hinj u hu h0
      exact Subtype.ext this
    · intro a
      obtain ⟨u, hu, e⟩ := hsurj
      refine ⟨a • ⟨u, hu⟩, ?_⟩
      rw [map_smul]
      show a • φ u = a
      rw [e]; simp
  rw [e]; simp

/-- The value of one coefficient as a linear map. -/
noncomputable def coefLin (D : DeRham) (i : Nat) : (Fin D.m0 → ℝ) →ₗ[ℝ] ℝ where
  toFun u := coef D.S.L0.dims (D.E0ᵀ *ᵥ u) 0 i 0 0
  map_add' u v := by rw [mulVec_add, coef_add]
  map_smul' a u := by rw [mulVec_smul, coef_smul]; rfl

theorem coef_zero_vec {d : Dims} (c i j l : Nat) : coef d (0 : Fin d.n → ℝ) c i j l = 0 := by
  unfold coef; split_ifs <;> rfl

/-- **C73** for all resolutions, scalar case: the Laplacian of 0-forms has as many harmonic functions as topology demands, and one more if
there are more radial than poloidal splines and the domain is polar or has no Dirichlet conditions. -/
theorem C73_scalar_harmonics (h : Admissible ns ps q types F polar dirichlet D) (hr : types.1 = "clamped") (ht : types.2.1 ≠ "clamped")
    (hz : types.2.2 ≠ "clamped") :
    finrank ℝ (LinearMap.ker D.dd0.mulVecLin) =
      betti polar dirichlet 0 + if ns.2.1 < ns.1 ∧ (polar = true ∨ dirichlet = false) then 1 else 0 := by
  have k0 := (C34_kernels_are_harmonic h).1
  have e : LinearMap.ker D.dd0.mulVecLin = LinearMap.ker D.strongGrad.mulVecLin := by
    ext v
    simp only [LinearMap.mem_ker, mulVecLin_apply]; exact k0 v
  rw [e]
  have w := h.cw hr ht hz
  obtain ⟨N, hN⟩ : ∃ N, N = ns.1 := ⟨_, rfl⟩
  obtain ⟨M, hM⟩ : ∃ M, M = ns.2.1 := ⟨_, rfl⟩
  obtain ⟨L, hL⟩ : ∃ L, L = ns.2.2 := ⟨_, rfl⟩
  rw [← hN, ← hM, ← hL] at w
  rw [← hN, ← hM]
  have hN2 := w.hN
  have hM1 := w.hM
  have hL1 := w.hL
  have hpol := w.hp
  have mem : ∀ u, u ∈ LinearMap.ker D.strongGrad.mulVecLin ↔ D.strongGrad *ᵥ u = 0 := fun u => Iff.rfl
  have zer : ∀ i, coef D.S.L0.dims (D.E0ᵀ *ᵥ (0 : Fin D.m0 → ℝ)) 0 i 0 0 = 0 := fun i => by
    rw [mulVec_zero]; exact coef_zero_vec _ _ _ _
  have g0 : D.strongGrad *ᵥ (0 : Fin D.m0 → ℝ) = 0 := mulVec_zero _
  have zc : zcut M 0 = 1 := by simp [zcut]; omega
  -- elements of the kernel from profiles
  have mkK : ∀ f : Nat → ℝ, (polar = true → f 1 = f 0) → (dirichlet = true → f (N - 1) = 0) → (polar = false → dirichlet = true → f 0 = 0) →
      (∀ i < N - 1, codeRad N M f i = 0) → ∃ u, D.strongGrad *ᵥ u = 0 ∧ ∀ i < N, coef D.S.L0.dims (D.E0ᵀ *ᵥ u) 0 i 0 0 = f i := by
    intro f a b c d
    obtain ⟨u, hu⟩ := w.profile f a b c
    have v : ∀ i < N, coef D.S.L0.dims (D.E0ᵀ *ᵥ u) 0 i 0 0 = f i := fun i hi => by
      rw [hu i hi 0 (by omega) 0 (by omega), zc, mul_one]
    refine ⟨u, (w.ker_grad_iff u).mpr ⟨fun i hi => ?_, fun i hi j hj l hl => ?_⟩, v⟩
    · rw [← d i hi]
      unfold codeRad
      beta_reduce
      rw [v (i + 1) (by omega), v i (by omega), v (N - 1) (by omega)]
    · rw [hu i hi j hj l hl, v i hi]
  by_cases hb : M < N
  · cases hd : dirichlet
    · have b1 : betti polar false 0 = 1 := by cases polar <;> rfl
      rw [b1, if_pos ⟨hb, Or.inr rfl⟩]
      refine finrank_two _ ((coefLin D 0).prod (coefLin D (N - 1))) (fun u hu h0 => ?_) ?_
      · have h0' := Prod.ext_iff.mp h0
        exact w.kernel_values hu g0 (by rw [zer]; exact h0'.1) (by rw [zer]; exact h0'.2)
      · rintro ⟨a, b⟩
        obtain ⟨u, hu, v⟩ := mkK (fun i => if i + 1 = N then b else if i < M then a else 0)
          (fun hp => by
            have := hpol hp
            rw [if_neg (by omega), if_pos (by omega), if_neg (by omega), if_pos (by omega)])
          (by simp [hd]) (by simp [hd])
          ((codeRad_zero_iff hN2 hM1 _).mpr ⟨by omega, by omega, fun _ => ⟨fun i hi => by
            rw [if_neg (by omega), if_pos hi, if_neg (by omega), if_pos (by omega)], fun i h1 h2 => by
            rw [if_neg (by omega), if_neg (by omega)]⟩⟩)
        refine ⟨u, hu, ?_⟩
        show (coef D.S.L0.dims (D.E0ᵀ *ᵥ u) 0 0 0 0, coef D.S.L0.dims (D.E0ᵀ *ᵥ u) 0 (N - 1) 0 0) = (a, b)
        rw [v 0 (by omega), v (N - 1) (by omega), if_neg (by omega), if_pos (by omega), if_pos (by omega)]
    · cases hp : polar
      · rw [if_neg (by simp)]
        have : LinearMap.ker D.strongGrad.mulVecLin = ⊥ := by
          rw [LinearMap.ker_eq_bot']
          intro u hu
          obtain ⟨a, b⟩ := w.conf_profile u hu
          exact w.kernel_values hu g0 (by rw [zer]; exact b hp hd) (by rw [zer]; exact a hd)
        rw [this]; simp [betti, bettiShell]
      · have b0 : betti true true 0 = 0 := rfl
        rw [b0, if_pos ⟨hb, Or.inl rfl⟩]
        refine finrank_one _ (coefLin D 0) (fun u hu h0 => ?_) ?_
        · exact w.kernel_values hu g0 (by rw [zer]; exact h0) (by rw [zer]; exact (w.conf_profile u hu).1 hd)
        · have := hpol hp
          obtain ⟨u, hu, v⟩ := mkK (fun i => if i + 1 = N then 0 else if i < M then 1 else 0)
            (fun hp => by
              rw [if_neg (by omega), if_pos (by omega), if_neg (by omega), if_pos (by omega)])
            (fun _ => by rw [if_pos (by omega)]) (by simp [hp])
            ((codeRad_zero_iff hN2 hM1 _).mpr ⟨by omega, by omega, fun _ => ⟨fun i hi => by
              rw [if_neg (by omega), if_pos hi, if_neg (by omega), if_pos (by omega)], fun i h1 h2 => by
              rw [if_neg (by omega), if_neg (by omega)]⟩⟩)
          refine ⟨u, hu, ?_⟩
          show coef D.S.L0.dims (D.E0ᵀ *ᵥ u) 0 0 0 0 = 1
          rw [v 0 (by omega), if_neg (by omega), if_pos (by omega)]
  · rw [if_neg (by omega), add_zero]
    have f0 : ∀ u, D.strongGrad *ᵥ u = 0 → coef D.S.L0.dims (D.E0ᵀ *ᵥ u) 0 (N - 1) 0 0 = 0 → u = 0 := by
      intro u hu h0
      obtain ⟨p1, p2, _⟩ := (codeRad_zero_iff hN2 hM1 _).mp ((w.ker_grad_iff u).mp hu).1
      refine w.kernel_values hu g0 ?_ (by rw [zer]; exact h0)
      rw [zer]
      rcases Nat.lt_or_ge N M with e' | e'
      · exact p2 e' 0 (by omega)
      · have := p1 (by omega) (N - 1) (by omega)
        beta_reduce at this
        rw [← this]; exact h0
    cases hd : dirichlet
    · have b1 : betti polar false 0 = 1 := by cases polar <;> rfl
      rw [b1]
      refine finrank_one _ (coefLin D (N - 1)) f0 ?_
      rcases Nat.lt_or_ge N M with e' | e'
      · obtain ⟨u, hu, v⟩ := mkK (fun i => if i + 1 = N then 1 else 0)
          (fun hp => by
            have := hpol hp
            rw [if_neg (by omega), if_neg (by omega)])
          (by simp [hd]) (by simp [hd])
          ((codeRad_zero_iff hN2 hM1 _).mpr ⟨by omega, fun _ i hi => by rw [if_neg (by omega)], by omega⟩)
        refine ⟨u, hu, ?_⟩
        show coef D.S.L0.dims (D.E0ᵀ *ᵥ u) 0 (N - 1) 0 0 = 1
        rw [v _ (by omega), if_pos (by omega)]
      · obtain ⟨u, hu, v⟩ := mkK (fun i => 1) (fun _ => rfl) (by simp [hd]) (by simp [hd])
          ((codeRad_zero_iff hN2 hM1 _).mpr ⟨fun _ i hi => rfl, by omega, by omega⟩)
        refine ⟨u, hu, ?_⟩
        show coef D.S.L0.dims (D.E0ᵀ *ᵥ u) 0 (N - 1) 0 0 = 1
        rw [v _ (by omega)]
    · have b1 : betti polar true 0 = 0 := by cases polar <;> rfl
      rw [b1]
      have : LinearMap.ker D.strongGrad.mulVecLin = ⊥ := by
        rw [LinearMap.ker_eq_bot']
        intro u hu
        exact f0 u hu ((w.conf_profile u hu).1 hd)
      rw [this]; simp

/-- Case: the standard case. -/
example (polar dirichlet : Bool) := C73_scalar_harmonics (Case.adm polar dirichlet) rfl (by decide) (by decide)

/-- **C73** (finding) on a polar domain with Dirichlet conditions the systems `solve(dd0, b)` (pressure) and `solve(dd1, b)` (vector
potential, helicity) are singular as soon as there are more radial than poloidal splines. -/
theorem C73_polar_dirichlet_singular (h : Admissible ns ps q types F true true D) (hs : ns.2.1 < ns.1) :
    ¬ IsUnit D.dd0.det ∧ ¬ IsUnit D.dd1.det := by
  obtain ⟨hr, ht, hz, h3, h3'⟩ := h.polar rfl
  have ht' : types.2.1 ≠ "clamped" := by rw [ht]; decide
  have w := h.cw hr ht' hz
  constructor
  · rw [unit_iff_ker, C73_scalar_harmonics h hr ht' hz, if_pos ⟨hs, Or.inl rfl⟩]; omega
  · intro hu
    obtain ⟨N, hN⟩ : ∃ N, N = ns.1 := ⟨_, rfl⟩
    obtain ⟨M, hM⟩ : ∃ M, M = ns.2.1 := ⟨_, rfl⟩
    obtain ⟨L, hL⟩ : ∃ L, L = ns.2.2 := ⟨_, rfl⟩
    rw [← hN, ← hM, ← hL] at w
    rw [← hN, ← hM] at hs
    rw [← hM] at h3'
    have hN2 := w.hN
    have hM1 := w.hM
    have hL1 := w.hL
    rw [unit_iff_ker] at hu
    obtain ⟨k0, k1, k2, k3⟩ := C34_kernels_are_harmonic h
    obtain ⟨r0, r1, r2⟩ := codiff_ranks h
    obtain ⟨l0, _, _⟩ := C34_laplacians_are_hodge h
    obtain ⟨cg, dc, _, _⟩ := C33_exactness h
    have e : LinearMap.ker D.dd1.mulVecLin = LinearMap.ker D.strongCurl.mulVecLin ⊓ LinearMap.ker D.weakDiv.mulVecLin := by
      ext v
      simp only [Submodule.mem_inf, LinearMap.mem_ker, mulVecLin_apply]; exact k1 v
    have hf := finrank_harmonic D.strongGrad.mulVecLin D.strongCurl.mulVecLin D.weakDiv.mulVecLin
      (fun x => by simp only [mulVecLin_apply, mulVec_mulVec, cg, zero_mulVec])
      (fun x hx => by
        simp only [mulVecLin_apply, mulVec_mulVec] at hx ⊢
        rw [← k0, l0, neg_mulVec, hx, neg_zero]) r0
    rw [← e, hu, add_zero] at hf
    -- a closed 1-form
    have ind0 : ∀ i < N - 1, codeRad N M (fun i => if i < M ∧ i + 1 ≠ N then 1 else 0) i = 0 :=
      (codeRad_zero_iff hN2 hM1 _).mpr ⟨by omega, by omega, fun _ => ⟨fun i hi => by
        rw [if_pos (by omega), if_pos (by omega)], fun i h1 h2 => by rw [if_neg (by omega)]⟩⟩
    obtain ⟨v, hv⟩ := w.mk1 (fun c i _ _ => if c = 2 then (if i < M ∧ i + 1 ≠ N then 1 else 0) else 0) (by
      unfold Conf
      rw [if_pos rfl]
      unfold PolarForm
      rw [if_neg (by decide), if_pos rfl]
      refine ⟨⟨⟨fun _ => 0, fun _ => 0, fun j _ l _ => by simp⟩, fun _ j _ l _ => by simp⟩,
        ⟨fun _ => 1, fun _ => 0, fun _ => 0, fun j _ l _ => ⟨?_, ?_⟩⟩, fun _ j _ l _ => ?_⟩
      · beta_reduce; rw [if_pos rfl, if_pos (by omega)]
      · beta_reduce; rw [if_pos rfl, if_pos (by omega)]; ring
      · beta_reduce; rw [if_pos rfl, if_neg (by omega)])
    obtain ⟨_, i0, i1, i2, j0, j1, j2, _⟩ := dk_in N M L
    have hv0 : ∀ i < N - 1, ∀ j < M, ∀ l < L, coef D.S.L1.dims (D.E1ᵀ *ᵥ v) 0 i j l = 0 := fun i hi j hj l hl => by
      rw [hv 0 i j l ((i0 _ _ _).mpr ⟨hi, hj, hl⟩), if_neg (by decide)]
    have hv1 : ∀ i < N, ∀ j < M, ∀ l < L, coef D.S.L1.dims (D.E1ᵀ *ᵥ v) 1 i j l = 0 := fun i hi j hj l hl => by
      rw [hv 1 i j l ((i1 _ _ _).mpr ⟨hi, hj, hl⟩), if_neg (by decide)]
    have hv2 : ∀ i < N, ∀ j < M, ∀ l < L, coef D.S.L1.dims (D.E1ᵀ *ᵥ v) 2 i j l = if i < M ∧ i + 1 ≠ N then 1 else 0 :=
      fun i hi j hj l hl => by
        rw [hv 2 i j l ((i2 _ _ _).mpr ⟨hi, hj, hl⟩), if_pos rfl]
    have n1 : D.S.L1.dims.nr = N := by rw [w.d1]; rfl
    have n2 : D.S.L1.dims.nt = M := by rw [w.d1]; rfl
    have n3 : D.S.L1.dims.nz = L := by rw [w.d1]; rfl
    have m1 : D.S.L1.dims.dr = N - 1 := by rw [w.d1]; rfl
    have m2 : D.S.L1.dims.dt = M := by rw [w.d1]; rfl
    have closed : D.strongCurl *ᵥ v = 0 := by
      apply w.core.e2
      refine Seq.vec_zero_of_coef w.core.q.wf.f2.k _ fun c i j l hin => ?_
      rw [(w.core.curl v).2 c i j l hin]
      obtain ⟨c0, c1, c2⟩ := code1 (d := D.S.L1.dims) (by rw [w.d1]; rfl) (coef D.S.L1.dims (D.E1ᵀ *ᵥ v))
      have hcc := hin.comp_lt
      rw [w.d2] at hin hcc
      simp [Dims.shape, dk] at hcc
      interval_cases c
      · obtain ⟨x, y, z⟩ := (j0 _ _ _).mp hin
        rw [c0]; beta_reduce
        rw [dZ_zero D.S.L1.dims _ i j l (fun l hl => hv1 i x j y l (by omega)),
          dT_periodic D.S.L1.dims (by rw [m2, n2]) _ i j l (by omega), n2, hv2 i x _ (Nat.mod_lt _ (by omega)) l z, hv2 i x j y l z]
        ring
      · obtain ⟨x, y, z⟩ := (j1 _ _ _).mp hin
        rw [c1]; beta_reduce
        rw [dZ_zero D.S.L1.dims _ i j l (fun l hl => hv0 i x j y l (by omega)),
          dR_codeRad D.S.L1.dims (by omega) (by rw [m1, n1]) _ i j l (by omega), n1, n2]
        have := ind0 i x
        have e : codeRad N M (fun i => coef D.S.L1.dims (D.E1ᵀ *ᵥ v) 2 i j l) i = codeRad N M (fun i => if i < M ∧ i + 1 ≠ N then 1 else 0) i := by
          unfold codeRad
          beta_reduce
          rw [hv2 (i + 1) (by omega) j y l z, hv2 i (by omega) j y l z, hv2 (N - 1) (by omega) j y l z]
        rw [e, this]; ring
      · obtain ⟨x, y, z⟩ := (j2 _ _ _).mp hin
        rw [c2]; beta_reduce
        rw [dR_zero D.S.L1.dims _ i j l (fun i hi => hv1 i (by omega) j y l z),
          dT_zero D.S.L1.dims _ i j l (fun j hj => hv0 i x j (by omega) l z)]
        ring
    obtain ⟨φ, hφ⟩ := range_eq_ker_of cg hf v closed
    -- it is not a gradient
    have hsum := sum_dZ D.S.L0.dims (by rw [w.d0]; rfl) (by rw [w.d0]; exact hM1) (by rw [w.d0]; exact hL1)
      (coef D.S.L0.dims (D.E0ᵀ *ᵥ φ) 0) 0 0
    obtain ⟨_, _, e2⟩ := code0 (d := D.S.L0.dims) (by rw [w.d0]; rfl) (coef D.S.L0.dims (D.E0ᵀ *ᵥ φ))
    have : ∀ l ∈ range D.S.L0.dims.nz, dZ D.S.L0.dims (coef D.S.L0.dims (D.E0ᵀ *ᵥ φ) 0) 0 0 l = 1 := by
      intro l hl
      have hl' : l < L := by
        have := mem_range.mp hl
        rw [w.d0] at this; exact this
      rw [← e2, ← (w.core.grad φ).2 2 0 0 l (by rw [w.d1]; exact (i2 _ _ _).mpr ⟨by omega, by omega, hl'⟩), hφ, hv2 0 (by omega) 0 (by omega) l hl',
        if_pos (by omega)]
    rw [sum_congr rfl this] at hsum
    simp at hsum
    have : D.S.L0.dims.nz = L := by rw [w.d0]; rfl
    omega

/-- **C73** as it would be for all resolutions. -/
def C73_statement : Prop :=
  ∀ (ns ps : Nat × Nat × Nat) (q : Nat) (types : String × String × String) (F : V3 → V3) (polar dirichlet : Bool) (D : DeRham),
    Admissible ns ps q types F polar dirichlet D → types = ("clamped", "periodic", "periodic") →
      finrank ℝ (LinearMap.ker D.dd0.mulVecLin) = betti polar dirichlet 0

/-- **C73** (finding) it does not hold, for example for 6 x 5 x 4 splines on a polar domain with Dirichlet conditions. -/
theorem C73_false : ¬ C73_statement := by
  intro H
  obtain ⟨D, h⟩ : ∃ D, Admissible (6, 5, 4) (3, 2, 1) 4 ("clamped", "periodic", "periodic") (fun y => y) true true D :=
    Admissible.exists _ _ _ (by norm_num) (by unfold DirOK; norm_num) (by unfold DirOK; norm_num) (by unfold DirOK; norm_num)
      (by intro _; simp) fun x => by rw [jacobianDeterminant_id]; norm_num
  have a := H _ _ _ _ _ _ _ D h rfl
  have b := C73_scalar_harmonics h rfl (by decide) (by decide)
  rw [a, if_pos (by norm_num)] at b
  omega

example : ∃ D, Admissible (6, 5, 4) (3, 2, 1) 4 ("clamped", "periodic", "periodic") (fun y => y) true true D ∧
    ¬ IsUnit D.dd0.det ∧ ¬ IsUnit D.dd1.det := by
  obtain ⟨D, h⟩ : ∃ D, Admissible (6, 5, 4) (3, 2, 1) 4 ("clamped", "periodic", "periodic") (fun y => y) true true D :=
    Admissible.exists _ _ _ (by norm_num) (by unfold DirOK; norm_num) (by unfold DirOK; norm_num) (by unfold DirOK; norm_num)
      (by intro _; simp) fun x => by rw [jacobianDeterminant_id]; norm_num
  exact ⟨D, h, C73_polar_dirichlet_singular h (by norm_num)⟩

end
end Props
end Mrx
