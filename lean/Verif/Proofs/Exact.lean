import Verif.Proofs.Setting

/-! # Exact incidence of the assembled operators -/

set_option linter.unusedSectionVars false
set_option linter.unusedSimpArgs false

namespace Mrx
open Finset Jax Spec Matrix Quad Props

theorem Seq.compVal_congr (S : Seq ℝ) (d : Dims) {V V' : Nat → Nat → Nat → ℝ} (c j : Nat)
    (h : ∀ i m l, d.InRange c i m l → V i m l = V' i m l) : S.compVal d V c j = S.compVal d V' c j :=
  T3_congr fun i hi m hm l hl => h i m l ⟨hi, hm, hl⟩

namespace DeRham

/-- Compatibility of the extraction matrices with the exterior derivative, and conditions on the sizes. -/
structure ExactCore (D : DeRham) : Prop extends D.RegularCore where
  diff : D.S.DiffOK
  lift0 : ∀ y, ∃ w, ∀ c i j l, D.S.L1.dims.InRange c i j l →
    coef D.S.L1.dims (D.E1ᵀ *ᵥ w) c i j l = extDeriv D.S.L0.dims (coef D.S.L0.dims (D.E0ᵀ *ᵥ y)) c i j l
  lift1 : ∀ y, ∃ w, ∀ c i j l, D.S.L2.dims.InRange c i j l →
    coef D.S.L2.dims (D.E2ᵀ *ᵥ w) c i j l = extDeriv D.S.L1.dims (coef D.S.L1.dims (D.E1ᵀ *ᵥ y)) c i j l
  lift2 : ∀ y, ∃ w, ∀ c i j l, D.S.L3.dims.InRange c i j l →
    coef D.S.L3.dims (D.E3ᵀ *ᵥ w) c i j l = extDeriv D.S.L2.dims (coef D.S.L2.dims (D.E2ᵀ *ᵥ y)) c i j l
  last0 : ∀ y, D.S.L0.dims.nr = D.S.L0.dims.nt ∨ ∀ i, Seq.Seam D.S.L0.dims.nr D.S.L0.dims.nt i → ∀ m < D.S.L0.dims.nt, ∀ l < D.S.L0.dims.nz,
    coef D.S.L0.dims (D.E0ᵀ *ᵥ y) 0 i m l = 0
  last1 : ∀ y, D.S.L0.dims.nr = D.S.L0.dims.nt ∨ ∀ c, (c = 1 ∨ c = 2) → ∀ i, Seq.Seam D.S.L0.dims.nr D.S.L0.dims.nt i →
    ∀ m < D.S.L0.dims.nt, ∀ l < D.S.L0.dims.nz, coef D.S.L1.dims (D.E1ᵀ *ᵥ y) c i m l = 0
  last2 : ∀ y, D.S.L0.dims.nr = D.S.L0.dims.nt ∨ ∀ i, Seq.Seam D.S.L0.dims.nr D.S.L0.dims.nt i → ∀ m < D.S.L0.dims.nt, ∀ l < D.S.L0.dims.nz,
    coef D.S.L2.dims (D.E2ᵀ *ᵥ y) 0 i m l = 0

variable {D : DeRham} (h : D.ExactCore)
include h

omit h in
/-- If the fields agree, solving with the mass matrix gives the lift. -/
theorem solve_lift {nA nB m mA d nq : Nat} (gA gB : Getter) (W : Nat → Matrix (Fin d) (Fin d) ℝ)
    (E : Matrix (Fin m) (Fin nB) ℝ) (EA : Matrix (Fin mA) (Fin nA) ℝ)
    (hM : SPD (E * assemble gB gB nq d W nB nB * Eᵀ)) (y : Fin mA → ℝ) (w : Fin m → ℝ)
    (hf : ∀ j < nq, ∀ k < d, evaluateAtXq gA (EAᵀ *ᵥ y) j k = evaluateAtXq gB (Eᵀ *ᵥ w) j k) :
    solve (E * assemble gB gB nq d W nB nB * Eᵀ) (E * assemble gB gA nq d W nB nA * EAᵀ) *ᵥ y = w := by
  unfold solve
  rw [← mulVec_mulVec]
  have : (E * assemble gB gA nq d W nB nA * EAᵀ) *ᵥ y = (E * assemble gB gB nq d W nB nB * Eᵀ) *ᵥ w := by
    simp only [← mulVec_mulVec]
    rw [assemble_mulVec_congr gB gA gB W (EAᵀ *ᵥ y) (Eᵀ *ᵥ w) hf]
  rw [this, mulVec_mulVec, hM.inv_mul, one_mulVec]

theorem grad_spec (y : Fin D.m0 → ℝ) :
    (∀ j k, k < 3 → evaluateAtXq D.S.getDLambda0 (D.E0ᵀ *ᵥ y) j k = evaluateAtXq D.S.getLambda1 (D.E1ᵀ *ᵥ (D.strongGrad *ᵥ y)) j k) ∧
    ∀ c i j l, D.S.L1.dims.InRange c i j l → coef D.S.L1.dims (D.E1ᵀ *ᵥ (D.strongGrad *ᵥ y)) c i j l
      = extDeriv D.S.L0.dims (coef D.S.L0.dims (D.E0ᵀ *ᵥ y)) c i j l := by
  obtain ⟨w, hw⟩ := h.lift0 y
  have hf : ∀ j k, k < 3 → evaluateAtXq D.S.getDLambda0 (D.E0ᵀ *ᵥ y) j k = evaluateAtXq D.S.getLambda1 (D.E1ᵀ *ᵥ w) j k := by
    intro j k hk
    rw [Seq.dfield0 h.q.wf h.diff _ j k hk (h.last0 y), Seq.field1 h.q.wf _ j k hk]
    exact Seq.compVal_congr _ _ _ _ fun i m l hin => (hw k i m l hin).symm
  have e : D.strongGrad *ᵥ y = w :=
    solve_lift D.S.getDLambda0 D.S.getLambda1 D.W1 D.E1 D.E0 (M1_spd h.toRegularCore) y w fun j _ k hk => hf j k hk
  rw [e]
  exact ⟨hf, hw⟩

theorem curl_spec (y : Fin D.m1 → ℝ) :
    (∀ j k, k < 3 → evaluateAtXq D.S.getDLambda1 (D.E1ᵀ *ᵥ y) j k = evaluateAtXq D.S.getLambda2 (D.E2ᵀ *ᵥ (D.strongCurl *ᵥ y)) j k) ∧
    ∀ c i j l, D.S.L2.dims.InRange c i j l → coef D.S.L2.dims (D.E2ᵀ *ᵥ (D.strongCurl *ᵥ y)) c i j l
      = extDeriv D.S.L1.dims (coef D.S.L1.dims (D.E1ᵀ *ᵥ y)) c i j l := by
  obtain ⟨w, hw⟩ := h.lift1 y
  have hf : ∀ j k, k < 3 → evaluateAtXq D.S.getDLambda1 (D.E1ᵀ *ᵥ y) j k = evaluateAtXq D.S.getLambda2 (D.E2ᵀ *ᵥ w) j k := by
    intro j k hk
    rw [Seq.dfield1 h.q.wf h.diff _ j k hk (h.last1 y), Seq.field2 h.q.wf _ j k hk]
    exact Seq.compVal_congr _ _ _ _ fun i m l hin => (hw k i m l hin).symm
  have e : D.strongCurl *ᵥ y = w :=
    solve_lift D.S.getDLambda1 D.S.getLambda2 D.W2 D.E2 D.E1 (M2_spd h.toRegularCore) y w fun j _ k hk => hf j k hk
  rw [e]
  exact ⟨hf, hw⟩

theorem div_spec (y : Fin D.m2 → ℝ) :
    (∀ j k, evaluateAtXq D.S.getDLambda2 (D.E2ᵀ *ᵥ y) j k = evaluateAtXq D.S.getLambda3 (D.E3ᵀ *ᵥ (D.strongDiv *ᵥ y)) j k) ∧
    ∀ c i j l, D.S.L3.dims.InRange c i j l → coef D.S.L3.dims (D.E3ᵀ *ᵥ (D.strongDiv *ᵥ y)) c i j l
      = extDeriv D.S.L2.dims (coef D.S.L2.dims (D.E2ᵀ *ᵥ y)) c i j l := by
  obtain ⟨w, hw⟩ := h.lift2 y
  have hf : ∀ j k, evaluateAtXq D.S.getDLambda2 (D.E2ᵀ *ᵥ y) j k = evaluateAtXq D.S.getLambda3 (D.E3ᵀ *ᵥ w) j k := by
    intro j k
    rw [Seq.dfield2 h.q.wf h.diff _ j k (h.last2 y), Seq.field3' h.q.wf _ j k]
    exact Seq.compVal_congr _ _ _ _ fun i m l hin => (hw 0 i m l hin).symm
  have e : D.strongDiv *ᵥ y = w :=
    solve_lift D.S.getDLambda2 D.S.getLambda3 D.W3 D.E3 D.E2 (M3_spd h.toRegularCore) y w fun j _ k _ => hf j k
  rw [e]
  exact ⟨hf, hw⟩

/-- curl grad = 0. -/
theorem curl_grad : D.strongCurl * D.strongGrad = 0 := by
  have hw := h.q.wf
  have hd1 := (Seq.nr_eq hw).1
  have hd2 := (Seq.nr_eq hw).2.1
  have := h.diff.dr
  have hdt := h.diff.dt
  have hdz := h.diff.dz
  have hnr1 := h.diff.nr1
  have hk1 : D.S.L1.dims.k = 1 := by rw [hd1]
  refine ext_mulVec fun y => ?_
  rw [← mulVec_mulVec, zero_mulVec]
  apply h.e2
  refine Seq.vec_zero_of_coef hw.f2.k _ fun c i j l hin => ?_
  rw [(curl_spec h _).2 c i j l hin]
  have hg := (grad_spec h y).2
  have hc := hin.comp_lt
  simp [Dims.shape, hd2] at hc
  obtain ⟨e0, e1, e2⟩ := Seq.ext0 hw.k0 (coef D.S.L0.dims (D.E0ᵀ *ᵥ y))
  obtain ⟨f0, f1, f2⟩ := Seq.ext1 hk1 (coef D.S.L1.dims (D.E1ᵀ *ᵥ (D.strongGrad *ᵥ y)))
  have nrr : D.S.L1.dims.nr = D.S.L0.dims.nr := by rw [hd1]
  have ntt : D.S.L1.dims.nt = D.S.L0.dims.nt := by rw [hd1]
  have nzz : D.S.L1.dims.nz = D.S.L0.dims.nz := by rw [hd1]
  have r0 : ∀ i j l, D.S.L1.dims.InRange 0 i j l ↔ i < D.S.L0.dims.dr ∧ j < D.S.L0.dims.nt ∧ l < D.S.L0.dims.nz := by
    intro i j l; simp [Dims.InRange, Dims.cshape, Dims.shape, hd1]
  have r1 : ∀ i j l, D.S.L1.dims.InRange 1 i j l ↔ i < D.S.L0.dims.nr ∧ j < D.S.L0.dims.dt ∧ l < D.S.L0.dims.nz := by
    intro i j l; simp [Dims.InRange, Dims.cshape, Dims.shape, hd1]
  have r2 : ∀ i j l, D.S.L1.dims.InRange 2 i j l ↔ i < D.S.L0.dims.nr ∧ j < D.S.L0.dims.nt ∧ l < D.S.L0.dims.dz := by
    intro i j l; simp [Dims.InRange, Dims.cshape, Dims.shape, hd1]
  interval_cases c
  · have : i < D.S.L0.dims.nr ∧ j < D.S.L0.dims.dt ∧ l < D.S.L0.dims.dz := by
      simpa [Dims.InRange, Dims.cshape, Dims.shape, hd2] using hin
    obtain ⟨a1, a2, a3⟩ := this
    have m2 := Nat.mod_lt (j + 1) (show D.S.L0.dims.nt > 0 by omega)
    have m3 := Nat.mod_lt (l + 1) (show D.S.L0.dims.nz > 0 by omega)
    rw [f0]
    simp only [Δr, Δt, Δz, nrr, ntt, nzz]
    rw [hg 2 i _ l ((r2 _ _ _).mpr ⟨a1, m2, a3⟩), hg 2 i j l ((r2 _ _ _).mpr ⟨a1, by omega, a3⟩),
      hg 1 i j _ ((r1 _ _ _).mpr ⟨a1, a2, m3⟩), hg 1 i j l ((r1 _ _ _).mpr ⟨a1, a2, by omega⟩), e1, e2]
    simp only [Δr, Δt, Δz]; ring
  · have : i < D.S.L0.dims.dr ∧ j < D.S.L0.dims.nt ∧ l < D.S.L0.dims.dz := by
      simpa [Dims.InRange, Dims.cshape, Dims.shape, hd2] using hin
    obtain ⟨a1, a2, a3⟩ := this
    have m1 := Nat.mod_lt (i + 1) (show D.S.L0.dims.nr > 0 by omega)
    have m3 := Nat.mod_lt (l + 1) (show D.S.L0.dims.nz > 0 by omega)
    rw [f1]
    simp only [Δr, Δt, Δz, nrr, ntt, nzz]
    rw [hg 0 i j _ ((r0 _ _ _).mpr ⟨a1, a2, m3⟩), hg 0 i j l ((r0 _ _ _).mpr ⟨a1, a2, by omega⟩),
      hg 2 _ j l ((r2 _ _ _).mpr ⟨m1, a2, a3⟩), hg 2 i j l ((r2 _ _ _).mpr ⟨by omega, a2, a3⟩), e0, e2]
    simp only [Δr, Δt, Δz]; ring
  · have : i < D.S.L0.dims.dr ∧ j < D.S.L0.dims.dt ∧ l < D.S.L0.dims.nz := by
      simpa [Dims.InRange, Dims.cshape, Dims.shape, hd2] using hin
    obtain ⟨a1, a2, a3⟩ := this
    have m1 := Nat.mod_lt (i + 1) (show D.S.L0.dims.nr > 0 by omega)
    have m2 := Nat.mod_lt (j + 1) (show D.S.L0.dims.nt > 0 by omega)
    rw [f2]
    simp only [Δr, Δt, Δz, nrr, ntt, nzz]
    rw [hg 1 _ j l ((r1 _ _ _).mpr ⟨m1, a2, a3⟩), hg 1 i j l ((r1 _ _ _).mpr ⟨by omega, a2, a3⟩),
      hg 0 i _ l ((r0 _ _ _).mpr ⟨a1, m2, a3⟩), hg 0 i j l ((r0 _ _ _).mpr ⟨a1, by omega, a3⟩), e0, e1]
    simp only [Δr, Δt, Δz]; ring

/-- div curl = 0. -/
theorem div_curl : D.strongDiv * D.strongCurl = 0 := by
  have hw := h.q.wf
  have hd1 := (Seq.nr_eq hw).1
  have hd2 := (Seq.nr_eq hw).2.1
  have hd3 := (Seq.nr_eq hw).2.2
  have := h.diff.dr
  have hdt := h.diff.dt
  have hdz := h.diff.dz
  have hnr1 := h.diff.nr1
  have hk1 : D.S.L1.dims.k = 1 := by rw [hd1]
  have hk2 : D.S.L2.dims.k = 2 := by rw [hd2]
  refine ext_mulVec fun y => ?_
  rw [← mulVec_mulVec, zero_mulVec]
  apply h.e3
  refine Seq.vec_zero_of_coef hw.f3.k _ fun c i j l hin => ?_
  rw [(div_spec h _).2 c i j l hin]
  have hg := (curl_spec h y).2
  have hc := hin.comp_lt
  simp [Dims.shape, hd3] at hc
  subst hc
  obtain ⟨e0, e1, e2⟩ := Seq.ext1 hk1 (coef D.S.L1.dims (D.E1ᵀ *ᵥ y))
  have nrr : D.S.L1.dims.nr = D.S.L0.dims.nr := by rw [hd1]
  have ntt : D.S.L1.dims.nt = D.S.L0.dims.nt := by rw [hd1]
  have nzz : D.S.L1.dims.nz = D.S.L0.dims.nz := by rw [hd1]
  have nrr2 : D.S.L2.dims.nr = D.S.L0.dims.nr := by rw [hd2]
  have ntt2 : D.S.L2.dims.nt = D.S.L0.dims.nt := by rw [hd2]
  have nzz2 : D.S.L2.dims.nz = D.S.L0.dims.nz := by rw [hd2]
  have r0 : ∀ i j l, D.S.L2.dims.InRange 0 i j l ↔ i < D.S.L0.dims.nr ∧ j < D.S.L0.dims.dt ∧ l < D.S.L0.dims.dz := by
    intro i j l; simp [Dims.InRange, Dims.cshape, Dims.shape, hd2]
  have r1 : ∀ i j l, D.S.L2.dims.InRange 1 i j l ↔ i < D.S.L0.dims.dr ∧ j < D.S.L0.dims.nt ∧ l < D.S.L0.dims.dz := by
    intro i j l; simp [Dims.InRange, Dims.cshape, Dims.shape, hd2]
  have r2 : ∀ i j l, D.S.L2.dims.InRange 2 i j l ↔ i < D.S.L0.dims.dr ∧ j < D.S.L0.dims.dt ∧ l < D.S.L0.dims.nz := by
    intro i j l; simp [Dims.InRange, Dims.cshape, Dims.shape, hd2]
  have : i < D.S.L0.dims.dr ∧ j < D.S.L0.dims.dt ∧ l < D.S.L0.dims.dz := by
    simpa [Dims.InRange, Dims.cshape, Dims.shape, hd3] using hin
  obtain ⟨a1, a2, a3⟩ := this
  have m1 := Nat.mod_lt (i + 1) (show D.S.L0.dims.nr > 0 by omega)
  have m2 := Nat.mod_lt (j + 1) (show D.S.L0.dims.nt > 0 by omega)
  have m3 := Nat.mod_lt (l + 1) (show D.S.L0.dims.nz > 0 by omega)
  rw [Seq.ext2 hk2]
  simp only [Δr, Δt, Δz, nrr2, ntt2, nzz2]
  rw [hg 0 _ j l ((r0 _ _ _).mpr ⟨m1, a2, a3⟩), hg 0 i j l ((r0 _ _ _).mpr ⟨by omega, a2, a3⟩),
    hg 1 i _ l ((r1 _ _ _).mpr ⟨a1, m2, a3⟩), hg 1 i j l ((r1 _ _ _).mpr ⟨a1, by omega, a3⟩),
    hg 2 i j _ ((r2 _ _ _).mpr ⟨a1, a2, m3⟩), hg 2 i j l ((r2 _ _ _).mpr ⟨a1, a2, by omega⟩), e0, e1, e2]
  simp only [Δr, Δt, Δz, nrr, ntt, nzz]; ring

end DeRham

/-- Basis types and sizes for which the tabulated exterior derivatives are right (see C20): clamped radially,
periodic (or constant) in the angles, at most as many axial as poloidal functions, and either as many radial as
poloidal functions, or, together with the Dirichlet flag, fewer or a single poloidal function. -/
structure Compatible (ns : Nat × Nat × Nat) (types : String × String × String) (dirichlet : Bool) : Prop where
  r : types.1 = "clamped"
  t : types.2.1 ≠ "clamped"
  z : types.2.2 ≠ "clamped"
  nz : ns.2.2 ≤ ns.2.1
  nr : ns.1 = ns.2.1 ∨ (dirichlet = true ∧ (ns.1 ≤ ns.2.1 ∨ ns.2.1 = 1))

namespace Admissible
variable {ns ps : Nat × Nat × Nat} {q : Nat} {types : String × String × String} {F : V3 → V3} {polar dirichlet : Bool}
  {D : DeRham} (h : Admissible ns ps q types F polar dirichlet D)
include h

theorem dims0 : D.S.L0.dims = ⟨0, ns.1, ns.2.1, ns.2.2, Form.dsize ns.1 types.1, Form.dsize ns.2.1 types.2.1,
    Form.dsize ns.2.2 types.2.2⟩ := (Form.mk?_inv (Seq.mk?_inv (seq h.built)).1).2.1

theorem diffOK (hc : Compatible ns types dirichlet) : D.S.DiffOK := by
  have hd := h.dims0
  have h1 : 1 ≤ ns.1 := by
    have := h.r
    unfold DirOK at this
    omega
  have h2 := hc.nr
  have h3 := hc.nz
  have h4 : 1 ≤ ns.2.2 := by
    have := h.z
    unfold DirOK at this
    omega
  constructor <;> rw [hd] <;> simp [Form.dsize, hc.r, hc.t, hc.z]
  · omega
  · exact hc.nz
  · omega

theorem exact (hc : Compatible ns types dirichlet) : D.ExactCore := by
  have hcore := h.core
  have hdiff := h.diffOK hc
  have hd := h.dims0
  have hps := h.polarSettings
  have hpol := h.polar
  have hw := h.quad.wf
  have d1 := (Seq.nr_eq hw).1
  have d2 := (Seq.nr_eq hw).2.1
  have d3 := (Seq.nr_eq hw).2.2
  have hnr := hc.nr
  have hnr1 := hdiff.nr1
  obtain ⟨k0, k1, k2, k3⟩ := h.degrees
  have enr : D.S.L0.dims.nr = ns.1 := by rw [hd]
  have ent : D.S.L0.dims.nt = ns.2.1 := by rw [hd]
  have enz : D.S.L0.dims.nz = ns.2.2 := by rw [hd]
  have hdt := hdiff.dt
  have hdz := hdiff.dz
  obtain ⟨S, hS, ⟨hp, rfl⟩ | ⟨hp, rfl⟩⟩ := cases' h.built
  · obtain ⟨p0, p1, p2, p3⟩ := hps hp
    have seam : ∀ i, Seq.Seam ns.1 ns.2.1 i → i = ns.1 - 1 := by
      intro i hi
      have := (hpol hp).2.2.2.2
      unfold Seq.Seam at hi
      omega
    have hz0 : S.L1.dims.dz = ns.2.2 := by rw [← enz, ← hdz, show S.L1.dims = _ from d1]
    refine { hcore with diff := hdiff, lift0 := ?_, lift1 := ?_, lift2 := ?_, last0 := ?_, last1 := ?_, last2 := ?_ }
    · exact fun y => C30_polar_complex 0 (by simp) ns ps _ S.L0 S.L1 p0 p1 dirichlet y
    · exact fun y => C30_polar_complex 1 (by simp) ns ps _ S.L1 S.L2 p1 p2 dirichlet y
    · exact fun y => C30_polar_complex 2 (by simp) ns ps _ S.L2 S.L3 p2 p3 dirichlet y
    · intro y
      rw [enr, ent, enz]
      rcases hnr with e | ⟨e, _⟩
      · exact Or.inl e
      · have := (C28_range_is_polar_forms 0 ns ps _ S.L0 p0 dirichlet _).mp ⟨y, rfl⟩
        exact Or.inr fun i hi => seam i hi ▸ this.2 e
    · intro y
      rw [enr, ent, enz]
      rcases hnr with e | ⟨e, _⟩
      · exact Or.inl e
      · have := (C28_range_is_polar_forms 1 ns ps _ S.L1 p1 dirichlet _).mp ⟨y, rfl⟩
        rw [hz0] at this
        refine Or.inr fun c hc i hi => ?_
        rw [seam i hi]
        rcases hc with rfl | rfl
        · exact this.1.2 e
        · exact this.2.2 e
    · intro y
      rw [enr, ent, enz]
      rcases hnr with e | ⟨e, _⟩
      · exact Or.inl e
      · have := (C28_range_is_polar_forms 2 ns ps _ S.L2 p2 dirichlet _).mp ⟨y, rfl⟩
        exact Or.inr fun i hi => seam i hi ▸ this.1.2 e
  · replace k0 : S.L0.dims.k = 0 := k0
    replace k1 : S.L1.dims.k = 1 := k1
    replace k2 : S.L2.dims.k = 2 := k2
    replace d1 : S.L1.dims = { S.L0.dims with k := 1 } := d1
    replace d2 : S.L2.dims = { S.L0.dims with k := 2 } := d2
    replace hnr1 : 1 ≤ S.L0.dims.nr := hnr1
    have hr : S.L0.dims.dr ≤ S.L0.dims.nr := by have := hdiff.dr; exact this.trans_le (Nat.sub_le _ _)
    have ht : S.L0.dims.dt ≤ S.L0.dims.nt := hdt.le
    have hz : S.L0.dims.dz ≤ S.L0.dims.nz := hdz.le
    have w0 : withDegree S.L0.dims 0 = S.L0.dims := by rw [show S.L0.dims = _ from hd]; rfl
    have w1 : withDegree S.L0.dims 1 = S.L1.dims := by rw [show S.L1.dims = _ from d1]; rfl
    have w2 : withDegree S.L0.dims 2 = S.L2.dims := by rw [show S.L2.dims = _ from d2]; rfl
    have w3 : withDegree S.L0.dims 3 = S.L3.dims := by rw [show S.L3.dims = _ from d3]; rfl
    have b0 := C30_boundary_complex S.L0.dims 0 (by simp) (DeRham.bcTypes dirichlet) hr ht hz
    have b1 := C30_boundary_complex S.L0.dims 1 (by simp) (DeRham.bcTypes dirichlet) hr ht hz
    have b2 := C30_boundary_complex S.L0.dims 2 (by simp) (DeRham.bcTypes dirichlet) hr ht hz
    rw [show (0 : Int) + 1 = 1 by norm_num, w0, w1] at b0
    rw [show (1 : Int) + 1 = 2 by norm_num, w1, w2] at b1
    rw [show (2 : Int) + 1 = 3 by norm_num, w2, w3] at b2
    have seam : (ns.1 ≤ ns.2.1 ∨ ns.2.1 = 1) → ∀ i, Seq.Seam S.L0.dims.nr S.L0.dims.nt i → i = S.L0.dims.nr - 1 ∨ i = 0 := by
      intro hs i hi
      rw [show S.L0.dims.nr = ns.1 from enr, show S.L0.dims.nt = ns.2.1 from ent] at hi
      rw [show S.L0.dims.nr = ns.1 from enr]
      unfold Seq.Seam at hi
      omega
    have hbc : dirichlet = true → DeRham.bcTypes dirichlet = ("dirichlet", "none", "none") := by
      intro e; rw [e]; rfl
    have Z : ∀ (d : Dims) (hv : d.k = 0 ∨ d.k = 1 ∨ d.k = 2 ∨ d.k = 3) (u : Fin (BoundaryOp.mk d (DeRham.bcTypes dirichlet)).rowDims.n → ℝ),
        ∀ c i j l, d.InRange c i j l → dirichlet = true → isDeriv d.k c 0 = false → (i = d.nr - 1 ∨ i = 0) → 1 ≤ d.nr →
        coef d ((BoundaryOp.mk d (DeRham.bcTypes dirichlet)).matrixᵀ *ᵥ u) c i j l = 0 := by
      intro d hv u c i j l hin e hder hi hn
      have hdrop := (boundary_range (BoundaryOp.mk d (DeRham.bcTypes dirichlet)) hv _).mp ⟨u, rfl⟩
      refine dropped_coef d (by unfold Dims.validDegree; omega) (DeRham.bcTypes dirichlet) _ hdrop hin ?_
      rw [hbc e]
      intro hk
      have := hk.1
      simp only [hder, Bool.false_eq_true, false_or, Keeps1, LeftConstrained, RightConstrained, true_or, forall_const] at this
      omega
    refine { hcore with diff := hdiff, lift0 := b0, lift1 := b1, lift2 := b2, last0 := ?_, last1 := ?_, last2 := ?_ }
    · intro y
      rcases hnr with e | ⟨e, hs⟩
      · exact Or.inl (by rw [enr, ent]; exact e)
      · refine Or.inr fun i hi m hm l hl => Z S.L0.dims (Or.inl k0) y 0 i m l ?_ e ?_ (seam hs i hi) hnr1
        · simp only [Dims.InRange, Dims.cshape, Dims.shape, k0]
          exact ⟨hi.1, hm, hl⟩
        · rw [k0]; rfl
    · intro y
      rcases hnr with e | ⟨e, hs⟩
      · exact Or.inl (by rw [enr, ent]; exact e)
      · refine Or.inr fun c hc i hi m hm l hl => Z S.L1.dims (Or.inr (Or.inl k1)) y c i m l ?_ e ?_ (by rw [d1]; exact seam hs i hi) (by rw [d1]; exact hnr1)
        · have a1 : i < S.L0.dims.nr := hi.1
          have a2 : m < S.L0.dims.dt := by have := hdt; exact this ▸ hm
          have a3 : l < S.L0.dims.dz := by have := hdz; exact this ▸ hl
          rcases hc with rfl | rfl
          · simp only [Dims.InRange, Dims.cshape, Dims.shape, show S.L1.dims = _ from d1]
            exact ⟨a1, a2, hl⟩
          · simp only [Dims.InRange, Dims.cshape, Dims.shape, show S.L1.dims = _ from d1]
            exact ⟨a1, hm, a3⟩
        · rw [k1]; rcases hc with rfl | rfl <;> rfl
    · intro y
      rcases hnr with e | ⟨e, hs⟩
      · exact Or.inl (by rw [enr, ent]; exact e)
      · refine Or.inr fun i hi m hm l hl => Z S.L2.dims (Or.inr (Or.inr (Or.inl k2))) y 0 i m l ?_ e ?_ (by rw [d2]; exact seam hs i hi) (by rw [d2]; exact hnr1)
        · have a1 : i < S.L0.dims.nr := hi.1
          have a2 : m < S.L0.dims.dt := by have := hdt; exact this ▸ hm
          have a3 : l < S.L0.dims.dz := by have := hdz; exact this ▸ hl
          simp only [Dims.InRange, Dims.cshape, Dims.shape, show S.L2.dims = _ from d2]
          exact ⟨a1, a2, a3⟩
        · rw [k2]; rfl

end Admissible
end Mrx
