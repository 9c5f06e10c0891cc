import Verif.Proofs.Exact
import Verif.Proofs.CodeComplex2

/-! # The complex the code builds: strong operators -/

set_option linter.unusedSectionVars false
set_option linter.unusedSimpArgs false
set_option linter.unusedVariables false

namespace Mrx
open Finset Jax Spec Matrix Quad Props

theorem dR_dT (d : Dims) (C : Nat → Nat → Nat → ℝ) (i j l : Nat) : dR d (dT d C) i j l = dT d (dR d C) i j l := by
  simp only [dR, dT, Finset.mul_sum]
  rw [Finset.sum_comm]
  exact Finset.sum_congr rfl fun _ _ => Finset.sum_congr rfl fun _ _ => by ring
theorem dR_dZ (d : Dims) (C : Nat → Nat → Nat → ℝ) (i j l : Nat) : dR d (dZ d C) i j l = dZ d (dR d C) i j l := by
  simp only [dR, dZ, Finset.mul_sum]
  rw [Finset.sum_comm]
  exact Finset.sum_congr rfl fun _ _ => Finset.sum_congr rfl fun _ _ => by ring
theorem dT_dZ (d : Dims) (C : Nat → Nat → Nat → ℝ) (i j l : Nat) : dT d (dZ d C) i j l = dZ d (dT d C) i j l := by
  simp only [dT, dZ, Finset.mul_sum]
  rw [Finset.sum_comm]
  exact Finset.sum_congr rfl fun _ _ => Finset.sum_congr rfl fun _ _ => by ring
theorem dR_sub (d : Dims) (C C' : Nat → Nat → Nat → ℝ) (i j l : Nat) :
    dR d (fun i j l => C i j l - C' i j l) i j l = dR d C i j l - dR d C' i j l := by
  simp only [dR, mul_sub, Finset.sum_sub_distrib]
theorem dT_sub (d : Dims) (C C' : Nat → Nat → Nat → ℝ) (i j l : Nat) :
    dT d (fun i j l => C i j l - C' i j l) i j l = dT d C i j l - dT d C' i j l := by
  simp only [dT, mul_sub, Finset.sum_sub_distrib]
theorem dZ_sub (d : Dims) (C C' : Nat → Nat → Nat → ℝ) (i j l : Nat) :
    dZ d (fun i j l => C i j l - C' i j l) i j l = dZ d C i j l - dZ d C' i j l := by
  simp only [dZ, mul_sub, Finset.sum_sub_distrib]

namespace DeRham

/-- Compatibility of the extraction matrices with the operators of the code. -/
structure ComplexCore (D : DeRham) : Prop extends D.RegularCore where
  ne : D.S.NonEmpty
  lift0 : ∀ y, ∃ w, ∀ c i j l, D.S.L1.dims.InRange c i j l →
    coef D.S.L1.dims (D.E1ᵀ *ᵥ w) c i j l = codeDeriv D.S.L0.dims (coef D.S.L0.dims (D.E0ᵀ *ᵥ y)) c i j l
  lift1 : ∀ y, ∃ w, ∀ c i j l, D.S.L2.dims.InRange c i j l →
    coef D.S.L2.dims (D.E2ᵀ *ᵥ w) c i j l = codeDeriv D.S.L1.dims (coef D.S.L1.dims (D.E1ᵀ *ᵥ y)) c i j l
  lift2 : ∀ y, ∃ w, ∀ c i j l, D.S.L3.dims.InRange c i j l →
    coef D.S.L3.dims (D.E3ᵀ *ᵥ w) c i j l = codeDeriv D.S.L2.dims (coef D.S.L2.dims (D.E2ᵀ *ᵥ y)) c i j l

namespace ComplexCore
variable {D : DeRham} (h : D.ComplexCore)
include h

theorem grad (y : Fin D.m0 → ℝ) :
    (∀ j k, k < 3 → evaluateAtXq D.S.getDLambda0 (D.E0ᵀ *ᵥ y) j k = evaluateAtXq D.S.getLambda1 (D.E1ᵀ *ᵥ (D.strongGrad *ᵥ y)) j k) ∧
    ∀ c i j l, D.S.L1.dims.InRange c i j l → coef D.S.L1.dims (D.E1ᵀ *ᵥ (D.strongGrad *ᵥ y)) c i j l
      = codeDeriv D.S.L0.dims (coef D.S.L0.dims (D.E0ᵀ *ᵥ y)) c i j l := by
  obtain ⟨w, hw⟩ := h.lift0 y
  have hf : ∀ j k, k < 3 → evaluateAtXq D.S.getDLambda0 (D.E0ᵀ *ᵥ y) j k = evaluateAtXq D.S.getLambda1 (D.E1ᵀ *ᵥ w) j k := by
    intro j k hk
    rw [Seq.cfield0 h.q.wf h.ne _ j k hk, Seq.field1 h.q.wf _ j k hk]
    exact Seq.compVal_congr _ _ _ _ fun i m l hin => (hw k i m l hin).symm
  have e : D.strongGrad *ᵥ y = w :=
    solve_lift D.S.getDLambda0 D.S.getLambda1 D.W1 D.E1 D.E0 (M1_spd h.toRegularCore) y w fun j _ k hk => hf j k hk
  rw [e]
  exact ⟨hf, hw⟩

theorem curl (y : Fin D.m1 → ℝ) :
    (∀ j k, k < 3 → evaluateAtXq D.S.getDLambda1 (D.E1ᵀ *ᵥ y) j k = evaluateAtXq D.S.getLambda2 (D.E2ᵀ *ᵥ (D.strongCurl *ᵥ y)) j k) ∧
    ∀ c i j l, D.S.L2.dims.InRange c i j l → coef D.S.L2.dims (D.E2ᵀ *ᵥ (D.strongCurl *ᵥ y)) c i j l
      = codeDeriv D.S.L1.dims (coef D.S.L1.dims (D.E1ᵀ *ᵥ y)) c i j l := by
  obtain ⟨w, hw⟩ := h.lift1 y
  have hf : ∀ j k, k < 3 → evaluateAtXq D.S.getDLambda1 (D.E1ᵀ *ᵥ y) j k = evaluateAtXq D.S.getLambda2 (D.E2ᵀ *ᵥ w) j k := by
    intro j k hk
    rw [Seq.cfield1 h.q.wf h.ne _ j k hk, Seq.field2 h.q.wf _ j k hk]
    exact Seq.compVal_congr _ _ _ _ fun i m l hin => (hw k i m l hin).symm
  have e : D.strongCurl *ᵥ y = w :=
    solve_lift D.S.getDLambda1 D.S.getLambda2 D.W2 D.E2 D.E1 (M2_spd h.toRegularCore) y w fun j _ k hk => hf j k hk
  rw [e]
  exact ⟨hf, hw⟩

theorem div (y : Fin D.m2 → ℝ) :
    (∀ j k, evaluateAtXq D.S.getDLambda2 (D.E2ᵀ *ᵥ y) j k = evaluateAtXq D.S.getLambda3 (D.E3ᵀ *ᵥ (D.strongDiv *ᵥ y)) j k) ∧
    ∀ c i j l, D.S.L3.dims.InRange c i j l → coef D.S.L3.dims (D.E3ᵀ *ᵥ (D.strongDiv *ᵥ y)) c i j l
      = codeDeriv D.S.L2.dims (coef D.S.L2.dims (D.E2ᵀ *ᵥ y)) c i j l := by
  obtain ⟨w, hw⟩ := h.lift2 y
  have hf : ∀ j k, evaluateAtXq D.S.getDLambda2 (D.E2ᵀ *ᵥ y) j k = evaluateAtXq D.S.getLambda3 (D.E3ᵀ *ᵥ w) j k := by
    intro j k
    rw [Seq.cfield2 h.q.wf h.ne _ j k, Seq.field3' h.q.wf _ j k]
    exact Seq.compVal_congr _ _ _ _ fun i m l hin => (hw 0 i m l hin).symm
  have e : D.strongDiv *ᵥ y = w :=
    solve_lift D.S.getDLambda2 D.S.getLambda3 D.W3 D.E3 D.E2 (M3_spd h.toRegularCore) y w fun j _ k _ => hf j k
  rw [e]
  exact ⟨hf, hw⟩

/-- curl grad = 0. -/
theorem curl_grad : D.strongCurl * D.strongGrad = 0 := by
  have hw := h.q.wf
  have hd1 := (Seq.nr_eq hw).1
  have hd2 := (Seq.nr_eq hw).2.1
  have hk1 : D.S.L1.dims.k = 1 := by rw [hd1]
  refine ext_mulVec fun y => ?_
  rw [← mulVec_mulVec, zero_mulVec]
  apply h.e2
  refine Seq.vec_zero_of_coef hw.f2.k _ fun c i j l hin => ?_
  rw [(curl h _).2 c i j l hin]
  have hg := (grad h y).2
  have hc := hin.comp_lt
  simp [Dims.shape, hd2] at hc
  obtain ⟨e0, e1, e2⟩ := code0 hw.k0 (coef D.S.L0.dims (D.E0ᵀ *ᵥ y))
  obtain ⟨f0, f1, f2⟩ := code1 hk1 (coef D.S.L1.dims (D.E1ᵀ *ᵥ (D.strongGrad *ᵥ y)))
  obtain ⟨g0, g1, g2⟩ := Seq.d_eq_of (d := D.S.L0.dims) (d' := D.S.L1.dims) (by rw [hd1])
  have r0 : ∀ i j l, D.S.L1.dims.InRange 0 i j l ↔ i < D.S.L0.dims.dr ∧ j < D.S.L0.dims.nt ∧ l < D.S.L0.dims.nz := by
    intro i j l; simp [Dims.InRange, Dims.cshape, Dims.shape, hd1]
  have r1 : ∀ i j l, D.S.L1.dims.InRange 1 i j l ↔ i < D.S.L0.dims.nr ∧ j < D.S.L0.dims.dt ∧ l < D.S.L0.dims.nz := by
    intro i j l; simp [Dims.InRange, Dims.cshape, Dims.shape, hd1]
  have r2 : ∀ i j l, D.S.L1.dims.InRange 2 i j l ↔ i < D.S.L0.dims.nr ∧ j < D.S.L0.dims.nt ∧ l < D.S.L0.dims.dz := by
    intro i j l; simp [Dims.InRange, Dims.cshape, Dims.shape, hd1]
  interval_cases c
  · have : i < D.S.L0.dims.nr ∧ j < D.S.L0.dims.dt ∧ l < D.S.L0.dims.dz := by
      simpa [Dims.InRange, Dims.cshape, Dims.shape, hd2] using hin
    obtain ⟨a1, a2, a3⟩ := this
    rw [f0]
    beta_reduce
    rw [g1, g2, dT_congr _ (fun j hj => hg 2 i j l ((r2 _ _ _).mpr ⟨a1, hj, a3⟩)),
      dZ_congr _ (fun l hl => hg 1 i j l ((r1 _ _ _).mpr ⟨a1, a2, hl⟩)), e1, e2, dT_dZ, sub_self]
  · have : i < D.S.L0.dims.dr ∧ j < D.S.L0.dims.nt ∧ l < D.S.L0.dims.dz := by
      simpa [Dims.InRange, Dims.cshape, Dims.shape, hd2] using hin
    obtain ⟨a1, a2, a3⟩ := this
    rw [f1]
    beta_reduce
    rw [g0, g2, dZ_congr _ (fun l hl => hg 0 i j l ((r0 _ _ _).mpr ⟨a1, a2, hl⟩)),
      dR_congr _ (fun i hi => hg 2 i j l ((r2 _ _ _).mpr ⟨hi, a2, a3⟩)), e0, e2, dR_dZ, sub_self]
  · have : i < D.S.L0.dims.dr ∧ j < D.S.L0.dims.dt ∧ l < D.S.L0.dims.nz := by
      simpa [Dims.InRange, Dims.cshape, Dims.shape, hd2] using hin
    obtain ⟨a1, a2, a3⟩ := this
    rw [f2]
    beta_reduce
    rw [g0, g1, dR_congr _ (fun i hi => hg 1 i j l ((r1 _ _ _).mpr ⟨hi, a2, a3⟩)),
      dT_congr _ (fun j hj => hg 0 i j l ((r0 _ _ _).mpr ⟨a1, hj, a3⟩)), e0, e1, dR_dT, sub_self]

/-- div curl = 0. -/
theorem div_curl : D.strongDiv * D.strongCurl = 0 := by
  have hw := h.q.wf
  have hd1 := (Seq.nr_eq hw).1
  have hd2 := (Seq.nr_eq hw).2.1
  have hd3 := (Seq.nr_eq hw).2.2
  have hk1 : D.S.L1.dims.k = 1 := by rw [hd1]
  have hk2 : D.S.L2.dims.k = 2 := by rw [hd2]
  refine ext_mulVec fun y => ?_
  rw [← mulVec_mulVec, zero_mulVec]
  apply h.e3
  refine Seq.vec_zero_of_coef hw.f3.k _ fun c i j l hin => ?_
  rw [(div h _).2 c i j l hin]
  have hg := (curl h y).2
  have hc := hin.comp_lt
  simp [Dims.shape, hd3] at hc
  subst hc
  obtain ⟨e0, e1, e2⟩ := code1 hk1 (coef D.S.L1.dims (D.E1ᵀ *ᵥ y))
  obtain ⟨g0, g1, g2⟩ := Seq.d_eq_of (d := D.S.L0.dims) (d' := D.S.L1.dims) (by rw [hd1])
  obtain ⟨b0, b1, b2⟩ := Seq.d_eq_of (d := D.S.L0.dims) (d' := D.S.L2.dims) (by rw [hd2])
  have r0 : ∀ i j l, D.S.L2.dims.InRange 0 i j l ↔ i < D.S.L0.dims.nr ∧ j < D.S.L0.dims.dt ∧ l < D.S.L0.dims.dz := by
    intro i j l; simp [Dims.InRange, Dims.cshape, Dims.shape, hd2]
  have r1 : ∀ i j l, D.S.L2.dims.InRange 1 i j l ↔ i < D.S.L0.dims.dr ∧ j < D.S.L0.dims.nt ∧ l < D.S.L0.dims.dz := by
    intro i j l; simp [Dims.InRange, Dims.cshape, Dims.shape, hd2]
  have r2 : ∀ i j l, D.S.L2.dims.InRange 2 i j l ↔ i < D.S.L0.dims.dr ∧ j < D.S.L0.dims.dt ∧ l < D.S.L0.dims.nz := by
    intro i j l; simp [Dims.InRange, Dims.cshape, Dims.shape, hd2]
  have : i < D.S.L0.dims.dr ∧ j < D.S.L0.dims.dt ∧ l < D.S.L0.dims.dz := by
    simpa [Dims.InRange, Dims.cshape, Dims.shape, hd3] using hin
  obtain ⟨a1, a2, a3⟩ := this
  rw [code2 hk2]
  beta_reduce
  rw [b0, b1, b2, dR_congr _ (fun i hi => hg 0 i j l ((r0 _ _ _).mpr ⟨hi, a2, a3⟩)),
    dT_congr _ (fun j hj => hg 1 i j l ((r1 _ _ _).mpr ⟨a1, hj, a3⟩)),
    dZ_congr _ (fun l hl => hg 2 i j l ((r2 _ _ _).mpr ⟨a1, a2, hl⟩)), e0, e1, e2, g0, g1, g2,
    dR_sub, dT_sub, dZ_sub, dR_dT, dR_dZ, dT_dZ]
  ring

end ComplexCore
end DeRham

namespace Admissible
variable {ns ps : Nat × Nat × Nat} {q : Nat} {types : String × String × String} {F : V3 → V3} {polar dirichlet : Bool}
  {D : DeRham} (h : Admissible ns ps q types F polar dirichlet D)
include h

theorem nonEmpty : D.S.NonEmpty := by
  have hd := h.dims0
  have key : ∀ n p ty, DirOK n p q ty → 1 ≤ Form.dsize n ty := by
    intro n p ty hk
    unfold DirOK at hk
    rcases hk with ⟨rfl, _⟩ | ⟨rfl, _⟩ | ⟨rfl, _⟩ <;> simp [Form.dsize] <;> omega
  constructor <;> rw [hd]
  · exact key _ _ _ h.r
  · exact key _ _ _ h.t
  · exact key _ _ _ h.z

/-- Every admissible sequence is a complex. -/
theorem complex : D.ComplexCore := by
  have hcore := h.core
  have hne := h.nonEmpty
  have hps := h.polarSettings
  have hpol := h.polar
  have hw := h.quad.wf
  have d1 := (Seq.nr_eq hw).1
  have d2 := (Seq.nr_eq hw).2.1
  have d3 := (Seq.nr_eq hw).2.2
  have hd := h.dims0
  obtain ⟨S, hS, ⟨hp, rfl⟩ | ⟨hp, rfl⟩⟩ := cases' h.built
  · obtain ⟨p0, p1, p2, p3⟩ := hps hp
    obtain ⟨_, _, hz, _, hnt⟩ := hpol hp
    refine { hcore with ne := hne, lift0 := ?_, lift1 := ?_, lift2 := ?_ }
    · exact fun y => polar_code_complex 0 (by simp) ns ps _ S.L0 S.L1 hz (by omega) p0 p1 dirichlet y
    · exact fun y => polar_code_complex 1 (by simp) ns ps _ S.L1 S.L2 hz (by omega) p1 p2 dirichlet y
    · exact fun y => polar_code_complex 2 (by simp) ns ps _ S.L2 S.L3 hz (by omega) p2 p3 dirichlet y
  · obtain ⟨t0, ht0⟩ : ∃ t0, DeRham.bcTypes dirichlet = (t0, "none", "none") := by
      cases dirichlet
      · exact ⟨"none", rfl⟩
      · exact ⟨"dirichlet", rfl⟩
    have w0 : withDegree S.L0.dims 0 = S.L0.dims := by rw [show S.L0.dims = _ from hd]; rfl
    have w1 : withDegree S.L0.dims 1 = S.L1.dims := by rw [show S.L1.dims = _ from d1]; rfl
    have w2 : withDegree S.L0.dims 2 = S.L2.dims := by rw [show S.L2.dims = _ from d2]; rfl
    have w3 : withDegree S.L0.dims 3 = S.L3.dims := by rw [show S.L3.dims = _ from d3]; rfl
    have b0 := boundary_code_complex S.L0.dims 0 (by simp) t0
    have b1 := boundary_code_complex S.L0.dims 1 (by simp) t0
    have b2 := boundary_code_complex S.L0.dims 2 (by simp) t0
    rw [show (0 : Int) + 1 = 1 by norm_num, w0, w1, ← ht0] at b0
    rw [show (1 : Int) + 1 = 2 by norm_num, w1, w2, ← ht0] at b1
    rw [show (2 : Int) + 1 = 3 by norm_num, w2, w3, ← ht0] at b2
    exact { hcore with ne := hne, lift0 := b0, lift1 := b1, lift2 := b2 }

end Admissible
end Mrx
