import Verif.Proofs.Case
import Verif.Proofs.Exists

/-!
# C26: boundary traces of the fields of a whole `DeRhamSequence`
-/

set_option linter.unusedSectionVars false
set_option linter.unusedVariables false

namespace Mrx.Props
open Finset Jax Spec Matrix Quad

variable {ns ps : Nat × Nat × Nat} {q : Nat} {types : String × String × String} {F : V3 → V3} {polar dirichlet : Bool}
  {D : DeRham}

/-- If the outermost ring of coefficients of a component with an undifferentiated radial factor vanishes, the
component vanishes at `r = 1`. -/
theorem trace_of_coef {m : Nat} {k : Int} (f : Form ℝ) (hf : Form.mk? k ns ps types = .ok f) (hty : types.1 = "clamped")
    (hr : ps.1 < ns.1) (hrf : ns.1 - ps.1 ≤ 99900) (E : Matrix (Fin m) (Fin f.dims.n) ℝ) (u : Fin m → ℝ) (c : Nat)
    (hc : c < f.dims.shape.length) (hd : isDeriv k c 0 = false) (θ ζ : ℝ)
    (h0 : ∀ j < (f.dims.cshape c).2.1, ∀ l < (f.dims.cshape c).2.2, coef f.dims (Eᵀ *ᵥ u) c (ns.1 - 1) j l = 0) :
    discreteFunction f u E (1, θ, ζ) c = 0 := by
  obtain ⟨hk, hdm, s0, s1, s2, _⟩ := Form.mk?_inv hf
  have ek : f.dims.k = k := by rw [hdm]
  have en : (f.dims.cshape c).1 = ns.1 := by
    rw [← show f.dims.nr = ns.1 by rw [hdm]]
    have hv := (Form.mk?_wf hf).k
    rw [← ek] at hd
    unfold Dims.cshape Dims.shape at *
    unfold Dims.validDegree at hv
    unfold isDeriv at hd
    split_ifs at * <;> simp_all
    all_goals
      obtain rfl | rfl | rfl : c = 0 ∨ c = 1 ∨ c = 2 := by omega
      all_goals simp_all
  rw [discreteFunction_eq_sum f (Form.mk?_wf hf) u E _ c hc]
  refine sum_eq_zero fun i hi => sum_eq_zero fun j hj => sum_eq_zero fun l hl => ?_
  rw [mem_range] at hi hj hl
  rw [en] at hi
  rw [hty] at s0
  have e1 := (C05_clamped_endpoints ns.1 ps.1 hr hrf f.Λ0 s0 i hi).2
  by_cases hi1 : i = ns.1 - 1
  · rw [hi1, h0 j hj l hl, zero_mul]
  · have : basisValue f c (1, θ, ζ) i j l = 0 := by
      unfold basisValue factor
      rw [ek, hd]
      simp only [e1, if_neg hi1]
      simp
    rw [this, mul_zero]

/-- **C26/C28** With the Dirichlet flag every field of a `DeRhamSequence` satisfies homogeneous boundary conditions on
the outer boundary `r = 1`: scalars vanish, 1-forms have no tangential and 2-forms no normal component.  Without
the polar extraction the same holds at `r = 0`. -/
theorem C26_sequence_dirichlet (h : Admissible ns ps q types F polar true D) (hty : types.1 = "clamped") (θ ζ r : ℝ)
    (hr : r = 1 ∨ (polar = false ∧ r = 0)) :
    (∀ u, discreteFunction D.S.L0 u D.E0 (r, θ, ζ) 0 = 0) ∧
    (∀ u, discreteFunction D.S.L1 u D.E1 (r, θ, ζ) 1 = 0 ∧ discreteFunction D.S.L1 u D.E1 (r, θ, ζ) 2 = 0) ∧
    (∀ u, discreteFunction D.S.L2 u D.E2 (r, θ, ζ) 0 = 0) := by
  have hrad := h.r
  rw [DirOK, hty] at hrad
  have hlt : ps.1 < ns.1 ∧ ns.1 - ps.1 ≤ 99900 := by
    rcases hrad with ⟨_, a, b, c, _⟩ | ⟨e, _⟩ | ⟨e, _⟩
    · exact ⟨b, c⟩
    · simp at e
    · simp at e
  obtain ⟨S, hS, ⟨hp, rfl⟩ | ⟨hp, rfl⟩⟩ := Admissible.cases' h.built
  · obtain rfl : r = 1 := by
      rcases hr with rfl | ⟨e, _⟩
      · rfl
      · rw [hp] at e; cases e
    obtain ⟨_, h2, h3, h4, h5⟩ := h.polar hp
    obtain ⟨tr, tt, tz⟩ := types
    obtain rfl : tr = "clamped" := hty
    obtain rfl : tt = "periodic" := h2
    obtain ⟨m0, m1, m2, m3, _⟩ := Seq.mk?_inv hS
    have d0 := (Form.mk?_inv m0).2.1
    have d1 := (Form.mk?_inv m1).2.1
    have d2 := (Form.mk?_inv m2).2.1
    have edt : Form.dsize ns.2.1 "periodic" = ns.2.1 := by simp [Form.dsize]
    have edz : Form.dsize ns.2.2 tz = ns.2.2 := by simp only [Form.dsize]; exact if_neg h3
    refine ⟨fun u => ?_, fun u => ⟨?_, ?_⟩, fun u => ?_⟩
    · have hp0 := (C28_range_is_polar_forms 0 ns ps tz S.L0 ⟨m0, h4, Or.inl rfl⟩ true _).mp ⟨u, rfl⟩
      simp only [PolarForm, if_true] at hp0
      refine trace_of_coef S.L0 m0 rfl hlt.1 hlt.2 _ u 0 ?_ rfl θ ζ ?_
      · simp [Dims.shape, d0]
      · intro j hj l hl
        simp only [Dims.cshape, Dims.shape, d0] at hj hl
        exact hp0.2 rfl j (by simpa using hj) l (by simpa using hl)
    · have hp1 := (C28_range_is_polar_forms 1 ns ps tz S.L1 ⟨m1, h4, Or.inr (Or.inl rfl)⟩ true _).mp ⟨u, rfl⟩
      simp only [PolarForm, if_true, one_ne_zero, if_false] at hp1
      refine trace_of_coef S.L1 m1 rfl hlt.1 hlt.2 _ u 1 ?_ rfl θ ζ ?_
      · simp [Dims.shape, d1]
      · intro j hj l hl
        simp only [Dims.cshape, Dims.shape, d1, edt] at hj hl
        exact hp1.1.2 rfl j (by simpa using hj) l (by simpa using hl)
    · have hp1 := (C28_range_is_polar_forms 1 ns ps tz S.L1 ⟨m1, h4, Or.inr (Or.inl rfl)⟩ true _).mp ⟨u, rfl⟩
      simp only [PolarForm, if_true, one_ne_zero, if_false] at hp1
      refine trace_of_coef S.L1 m1 rfl hlt.1 hlt.2 _ u 2 ?_ rfl θ ζ ?_
      · simp [Dims.shape, d1]
      · intro j hj l hl
        simp only [Dims.cshape, Dims.shape, d1, edt] at hj hl
        exact hp1.2.2 rfl j (by simpa using hj) l (by simpa [d1] using hl)
    · have hp2 := (C28_range_is_polar_forms 2 ns ps tz S.L2 ⟨m2, h4, Or.inr (Or.inr (Or.inr h3))⟩ true _).mp ⟨u, rfl⟩
      simp only [PolarForm, if_true] at hp2
      norm_num at hp2
      refine trace_of_coef S.L2 m2 rfl hlt.1 hlt.2 _ u 0 ?_ rfl θ ζ ?_
      · simp [Dims.shape, d2]
      · intro j hj l hl
        simp only [Dims.cshape, Dims.shape, d2, edt, edz] at hj hl
        exact hp2.1.2 rfl j (by simpa using hj) l (by simpa using hl)
  · obtain ⟨m0, m1, m2, m3, _⟩ := Seq.mk?_inv hS
    have d0 := (Form.mk?_inv m0).2.1
    have d1 := (Form.mk?_inv m1).2.1
    have d2 := (Form.mk?_inv m2).2.1
    have hx : (at3 (r, θ, ζ) 0 = 0 ∧ LeftConstrained (at3 (DeRham.bcTypes true) 0)) ∨
        (at3 (r, θ, ζ) 0 = 1 ∧ RightConstrained (at3 (DeRham.bcTypes true) 0)) := by
      rcases hr with rfl | ⟨_, rfl⟩
      · exact Or.inr ⟨rfl, Or.inl rfl⟩
      · exact Or.inl ⟨rfl, Or.inl rfl⟩
    refine ⟨fun u => ?_, fun u => ⟨?_, ?_⟩, fun u => ?_⟩
    · exact C26_vanishing_trace 0 (by simp) ns ps types _ S.L0 m0 0 (by norm_num) hty hlt.1 hlt.2 u 0
        (by simp [Dims.shape, d0]) rfl _ hx
    · exact C26_vanishing_trace 1 (by simp) ns ps types _ S.L1 m1 0 (by norm_num) hty hlt.1 hlt.2 u 1
        (by simp [Dims.shape, d1]) rfl _ hx
    · exact C26_vanishing_trace 1 (by simp) ns ps types _ S.L1 m1 0 (by norm_num) hty hlt.1 hlt.2 u 2
        (by simp [Dims.shape, d1]) rfl _ hx
    · exact C26_vanishing_trace 2 (by simp) ns ps types _ S.L2 m2 0 (by norm_num) hty hlt.1 hlt.2 u 0
        (by simp [Dims.shape, d2]) rfl _ hx

/-- The setting occurs, with and without the polar extraction. -/
example (polar : Bool) : ∃ D, Admissible (5, 6, 4) (3, 2, 1) 4 ("clamped", "periodic", "periodic") (fun y => y) polar true D :=
  Admissible.example polar true

/-- The value of a form at an end of a clamped radial direction only involves the end ring of coefficients. -/
theorem end_value {k : Int} (f : Form ℝ) (hf : Form.mk? k ns ps types = .ok f) (hty : types.1 = "clamped")
    (hr : ps.1 < ns.1) (hrf : ns.1 - ps.1 ≤ 99900) (v : Fin f.dims.n → ℝ) (c : Nat)
    (hc : c < f.dims.shape.length) (hd : isDeriv k c 0 = false) (right : Bool) (θ ζ : ℝ) :
    discreteFunction f v 1 (if right then 1 else 0, θ, ζ) c =
      ∑ j ∈ range (f.dims.cshape c).2.1, ∑ l ∈ range (f.dims.cshape c).2.2,
        coef f.dims v c (if right then ns.1 - 1 else 0) j l *
          (factor f (isDeriv k c 1) 1 θ j * factor f (isDeriv k c 2) 2 ζ l) := by
  obtain ⟨hk, hdm, s0, s1, s2, _⟩ := Form.mk?_inv hf
  have ek : f.dims.k = k := by rw [hdm]
  have en : (f.dims.cshape c).1 = ns.1 := by
    rw [← show f.dims.nr = ns.1 by rw [hdm]]
    have hv := (Form.mk?_wf hf).k
    rw [← ek] at hd
    unfold Dims.cshape Dims.shape at *
    unfold Dims.validDegree at hv
    unfold isDeriv at hd
    split_ifs at * <;> simp_all
    all_goals
      obtain rfl | rfl | rfl : c = 0 ∨ c = 1 ∨ c = 2 := by omega
      all_goals simp_all
  rw [discreteFunction_eq_sum f (Form.mk?_wf hf) v 1 _ c hc, transpose_one, one_mulVec, en]
  rw [hty] at s0
  have e1 : ∀ i < ns.1, f.Λ0.evaluate (if right then 1 else 0) i = if i = (if right then ns.1 - 1 else 0) then 1 else 0 := by
    intro i hi
    have := C05_clamped_endpoints ns.1 ps.1 hr hrf f.Λ0 s0 i hi
    cases right
    · exact this.1
    · exact this.2
  rw [sum_eq_single (if right then ns.1 - 1 else 0)]
  · refine sum_congr rfl fun j hj => sum_congr rfl fun l hl => ?_
    unfold basisValue
    rw [ek, hd]
    have := e1 (if right then ns.1 - 1 else 0) (by split_ifs <;> omega)
    rw [if_pos rfl] at this
    show _ * (f.Λ0.evaluate (if right then 1 else 0) _ * _ * _) = _
    rw [this, one_mul]
  · intro i hi hne
    refine sum_eq_zero fun j hj => sum_eq_zero fun l hl => ?_
    unfold basisValue
    rw [ek, hd]
    have := e1 i (mem_range.mp hi)
    rw [if_neg hne] at this
    show _ * (f.Λ0.evaluate (if right then 1 else 0) _ * _ * _) = _
    rw [this]; ring
  · intro hn
    exfalso; apply hn; rw [mem_range]; split_ifs <;> omega

theorem tensor2_zero {b c : Nat} {f g : ℝ → Nat → ℝ} {xs ys : List ℝ} (hf : Unisolvent b f xs) (hg : Unisolvent c g ys)
    (V : Nat → Nat → ℝ) (h : ∀ x y, ∑ j ∈ range b, ∑ l ∈ range c, V j l * (f x j * g y l) = 0) :
    ∀ j < b, ∀ l < c, V j l = 0 := by
  intro j hj l hl
  refine hg (fun l => V j l) (fun y _ => ?_) l hl
  refine hf (fun j => ∑ l ∈ range c, V j l * g y l) (fun x _ => ?_) j hj
  rw [← h x y]
  refine sum_congr rfl fun j _ => ?_
  rw [sum_mul]
  exact sum_congr rfl fun l _ => by ring

/-- Without the polar extraction, coefficients of a `k`-form come out of the Dirichlet boundary operator exactly
if the form they define has vanishing trace on both radial faces. -/
theorem boundary_trace_range {k : Int} (hk : k = 0 ∨ k = 1 ∨ k = 2 ∨ k = 3) (hq10 : q ≤ 10)
    (hS : ∃ S : Seq ℝ, Seq.mk? ns ps q types = .ok S) (f : Form ℝ)
    (hf : Form.mk? k ns ps types = .ok f) (hty : types.1 = "clamped")
    (h1 : DirOK ns.1 ps.1 q types.1) (h2 : DirOK ns.2.1 ps.2.1 q types.2.1) (h3 : DirOK ns.2.2 ps.2.2 q types.2.2)
    (v : Fin f.dims.n → ℝ) :
    (∃ u, (BoundaryOp.mk f.dims (DeRham.bcTypes true)).matrixᵀ *ᵥ u = v) ↔
      ∀ c < f.dims.shape.length, isDeriv k c 0 = false → ∀ θ ζ : ℝ,
        discreteFunction f v 1 (0, θ, ζ) c = 0 ∧ discreteFunction f v 1 (1, θ, ζ) c = 0 := by
  have hlt : ps.1 < ns.1 ∧ ns.1 - ps.1 ≤ 99900 := by
    rw [DirOK, hty] at h1
    rcases h1 with ⟨_, a, b, c, _⟩ | ⟨e, _⟩ | ⟨e, _⟩
    · exact ⟨b, c⟩
    · simp at e
    · simp at e
  have hsum : ∀ u x c, discreteFunction f ((BoundaryOp.mk f.dims (DeRham.bcTypes true)).matrixᵀ *ᵥ u) 1 x c
      = discreteFunction f u (BoundaryOp.mk f.dims (DeRham.bcTypes true)).matrix x c := by
    intro u x c
    unfold discreteFunction
    rw [vecMul_one, mulVec_transpose]
  constructor
  · rintro ⟨u, rfl⟩ c hc hd θ ζ
    rw [hsum, hsum]
    exact ⟨C26_vanishing_trace k hk ns ps types _ f hf 0 (by norm_num) hty hlt.1 hlt.2 u c hc hd _
        (Or.inl ⟨rfl, Or.inl rfl⟩),
      C26_vanishing_trace k hk ns ps types _ f hf 0 (by norm_num) hty hlt.1 hlt.2 u c hc hd _
        (Or.inr ⟨rfl, Or.inl rfl⟩)⟩
  · intro hv
    have hw := Form.mk?_wf hf
    obtain ⟨_, hdm, s0, s1, s2, d0, d1, d2⟩ := Form.mk?_inv hf
    have ek : f.dims.k = k := by rw [hdm]
    obtain ⟨S, hS⟩ := hS
    have hQ := (Seq.mk?_inv hS).2.2.2.2
    have hL0 := (Form.mk?_inv (Seq.mk?_inv hS).1)
    have hcoef : ∀ c < f.dims.shape.length, isDeriv k c 0 = false → ∀ j < (f.dims.cshape c).2.1,
        ∀ l < (f.dims.cshape c).2.2, coef f.dims v c 0 j l = 0 ∧ coef f.dims v c (ns.1 - 1) j l = 0 := by
      intro c hc hd
      obtain ⟨ty1, tz1, ty2, tz2⟩ : ∃ (xs ys : List ℝ), Unisolvent (f.dims.cshape c).2.1 (fun x i => factor f (isDeriv k c 1) 1 x i) xs ∧
          Unisolvent (f.dims.cshape c).2.2 (fun x i => factor f (isDeriv k c 2) 2 x i) ys := by
        unfold Quad.Rule.mk? at hQ
        split at hQ
        case h_2 => cases hQ
        rename_i rx ry rz hx hy hz'
        have i1 : S.L0.Λ1 = f.Λ1 := by
          have := hL0.2.2.2.1; rw [s1] at this; exact (Except.ok.inj this).symm
        have i2 : S.L0.Λ2 = f.Λ2 := by
          have := hL0.2.2.2.2.1; rw [s2] at this; exact (Except.ok.inj this).symm
        rw [i1] at hy; rw [i2] at hz'
        obtain ⟨b1, b2, _⟩ := h2.facts hq10 s1 d1 hy
        obtain ⟨c1, c2, _⟩ := h3.facts hq10 s2 d2 hz'
        refine ⟨ry.1, rz.1, ?_, ?_⟩
        · have e : (f.dims.cshape c).2.1 = if isDeriv k c 1 then Form.dsize ns.2.1 types.2.1 else ns.2.1 := by
            rw [← ek] at hd ⊢
            have e1 : Form.dsize ns.2.1 types.2.1 = f.dims.dt := by rw [hdm]
            have e2 : ns.2.1 = f.dims.nt := by rw [hdm]
            rw [e1, e2]
            rw [← ek] at hk
            rcases hk with e0 | e0 | e0 | e0 <;> simp only [Dims.shape, e0] at hc <;>
              simp [Dims.cshape, Dims.shape, isDeriv, e0] at hc ⊢
            · simp [hc]
            · obtain rfl | rfl | rfl : c = 0 ∨ c = 1 ∨ c = 2 := by omega
              all_goals simp
            · obtain rfl | rfl | rfl : c = 0 ∨ c = 1 ∨ c = 2 := by omega
              all_goals simp
            · simp [hc]
          rw [e]
          cases isDeriv k c 1
          · exact b1
          · exact b2
        · have e : (f.dims.cshape c).2.2 = if isDeriv k c 2 then Form.dsize ns.2.2 types.2.2 else ns.2.2 := by
            rw [← ek] at hd ⊢
            have e1 : Form.dsize ns.2.2 types.2.2 = f.dims.dz := by rw [hdm]
            have e2 : ns.2.2 = f.dims.nz := by rw [hdm]
            rw [e1, e2]
            rw [← ek] at hk
            rcases hk with e0 | e0 | e0 | e0 <;> simp only [Dims.shape, e0] at hc <;>
              simp [Dims.cshape, Dims.shape, isDeriv, e0] at hc ⊢
            · simp [hc]
            · obtain rfl | rfl | rfl : c = 0 ∨ c = 1 ∨ c = 2 := by omega
              all_goals simp
            · obtain rfl | rfl | rfl : c = 0 ∨ c = 1 ∨ c = 2 := by omega
              all_goals simp
            · simp [hc]
          rw [e]
          cases isDeriv k c 2
          · exact c1
          · exact c2
      intro j hj l hl
      constructor
      · refine tensor2_zero ty2 tz2 (fun j l => coef f.dims v c 0 j l) (fun x y => ?_) j hj l hl
        have := end_value f hf hty hlt.1 hlt.2 v c hc hd false x y
        simp only [Bool.false_eq_true, if_false] at this
        rw [← this]; exact (hv c hc hd x y).1
      · refine tensor2_zero ty2 tz2 (fun j l => coef f.dims v c (ns.1 - 1) j l) (fun x y => ?_) j hj l hl
        have := end_value f hf hty hlt.1 hlt.2 v c hc hd true x y
        simp only [if_true] at this
        rw [← this]; exact (hv c hc hd x y).2
    have hB : (BoundaryOp.mk f.dims (DeRham.bcTypes true)).Λ.k = 0 ∨ (BoundaryOp.mk f.dims (DeRham.bcTypes true)).Λ.k = 1 ∨
        (BoundaryOp.mk f.dims (DeRham.bcTypes true)).Λ.k = 2 ∨ (BoundaryOp.mk f.dims (DeRham.bcTypes true)).Λ.k = 3 := by
      show f.dims.k = 0 ∨ f.dims.k = 1 ∨ f.dims.k = 2 ∨ f.dims.k = 3
      rw [ek]; exact hk
    refine ⟨(BoundaryOp.mk f.dims (DeRham.bcTypes true)).matrix *ᵥ v, funext fun a => ?_⟩
    have hpr := C26_projection (BoundaryOp.mk f.dims (DeRham.bcTypes true)) hB v a
    by_cases hkept : Kept f.dims (DeRham.bcTypes true) (f.dims.unravelIndex a)
    · exact hpr.1 hkept
    · rw [hpr.2 hkept]
      obtain ⟨g1, g2⟩ := f.dims.unravelIndex_inRange hw.k a.2
      generalize hu : f.dims.unravelIndex a = u at *
      obtain ⟨c, i, j, l⟩ := u
      have hcoefa : v a = coef f.dims v c i j l := by
        unfold coef
        have hlt' := a.2
        simp only at g2
        rw [dif_pos (by rw [g2]; exact hlt')]
        congr 1
        exact Fin.ext g2.symm
      have hnone : ∀ n p, Keeps1 "none" n p := fun n p => ⟨fun h => by simp [LeftConstrained] at h, fun h => by
        simp [RightConstrained] at h⟩
      have hnd : isDeriv f.dims.k c 0 = false ∧ (i = 0 ∨ i + 1 = f.dims.nr) := by
        by_contra hcon
        apply hkept
        refine ⟨?_, Or.inr (hnone _ _), Or.inr (hnone _ _)⟩
        by_cases hd : isDeriv f.dims.k c 0 = true
        · exact Or.inl hd
        · right
          simp only [Bool.not_eq_true] at hd
          refine ⟨fun _ hi => hcon ⟨hd, Or.inl hi⟩, fun _ hi => hcon ⟨hd, Or.inr hi⟩⟩
      have hcl : c < f.dims.shape.length := by
        by_contra hge
        have : f.dims.cshape c = (0, 0, 0) := by
          unfold Dims.cshape
          simp [List.getD, show ¬ c < f.dims.shape.length from hge]
        simp only [Dims.InRange, this] at g1
        omega
      rw [hcoefa]
      have h5 := hcoef c hcl (ek ▸ hnd.1) j g1.2.1 l g1.2.2
      rcases hnd.2 with e | e
      · simp only [e]; exact h5.1.symm
      · have : i = ns.1 - 1 := by
          have : f.dims.nr = ns.1 := by rw [hdm]
          omega
        rw [this]; exact h5.2.symm

/-- **C26** Without the polar extraction the Dirichlet flag imposes exactly the boundary conditions, no more: a
coefficient vector of the unconstrained space is represented in the constrained space if and only if the field it
defines vanishes on both radial faces (0-forms: its value; 1-forms: its tangential components; 2-forms: its normal
component; 3-forms: no condition). -/
theorem C26_sequence_exact (h : Admissible ns ps q types F false true D) (hty : types.1 = "clamped") :
    (∀ v, (∃ u, D.E0ᵀ *ᵥ u = v) ↔ ∀ θ ζ : ℝ, ∀ r ∈ [(0:ℝ), 1], discreteFunction D.S.L0 v 1 (r, θ, ζ) 0 = 0) ∧
    (∀ v, (∃ u, D.E1ᵀ *ᵥ u = v) ↔ ∀ θ ζ : ℝ, ∀ r ∈ [(0:ℝ), 1],
      discreteFunction D.S.L1 v 1 (r, θ, ζ) 1 = 0 ∧ discreteFunction D.S.L1 v 1 (r, θ, ζ) 2 = 0) ∧
    (∀ v, (∃ u, D.E2ᵀ *ᵥ u = v) ↔ ∀ θ ζ : ℝ, ∀ r ∈ [(0:ℝ), 1], discreteFunction D.S.L2 v 1 (r, θ, ζ) 0 = 0) ∧
    (∀ v, ∃ u, D.E3ᵀ *ᵥ u = v) := by
  have h1 := h.r
  have h2 := h.t
  have h3 := h.z
  have hq := h.q10
  obtain ⟨S, hS, ⟨hp, rfl⟩ | ⟨hp, rfl⟩⟩ := Admissible.cases' h.built
  · cases hp
  obtain ⟨m0, m1, m2, m3, _⟩ := Seq.mk?_inv hS
  have d0 := (Form.mk?_inv m0).2.1
  have d1 := (Form.mk?_inv m1).2.1
  have d2 := (Form.mk?_inv m2).2.1
  have d3 := (Form.mk?_inv m3).2.1
  refine ⟨fun v => ?_, fun v => ?_, fun v => ?_, fun v => ?_⟩
  · refine (boundary_trace_range (k := 0) (by simp) hq ⟨S, hS⟩ S.L0 m0 hty h1 h2 h3 v).trans ⟨fun g θ ζ => ?_, fun g c hc _ θ ζ => ?_⟩
    · have := g 0 (by simp [Dims.shape, d0]) rfl θ ζ
      simp only [List.mem_cons, List.not_mem_nil, or_false, forall_eq_or_imp, forall_eq]
      exact this
    · have hc0 : c = 0 := by simpa [Dims.shape, d0] using hc
      subst hc0
      exact ⟨g θ ζ 0 (by simp), g θ ζ 1 (by simp)⟩
  · refine (boundary_trace_range (k := 1) (by simp) hq ⟨S, hS⟩ S.L1 m1 hty h1 h2 h3 v).trans ⟨fun g θ ζ => ?_, fun g c hc hd θ ζ => ?_⟩
    · have a1 := g 1 (by simp [Dims.shape, d1]) rfl θ ζ
      have a2 := g 2 (by simp [Dims.shape, d1]) rfl θ ζ
      simp only [List.mem_cons, List.not_mem_nil, or_false, forall_eq_or_imp, forall_eq]
      exact ⟨⟨a1.1, a2.1⟩, a1.2, a2.2⟩
    · have hc0 : c < 3 := by simpa [Dims.shape, d1] using hc
      obtain rfl | rfl | rfl : c = 0 ∨ c = 1 ∨ c = 2 := by omega
      · simp [isDeriv] at hd
      · exact ⟨(g θ ζ 0 (by simp)).1, (g θ ζ 1 (by simp)).1⟩
      · exact ⟨(g θ ζ 0 (by simp)).2, (g θ ζ 1 (by simp)).2⟩
  · refine (boundary_trace_range (k := 2) (by simp) hq ⟨S, hS⟩ S.L2 m2 hty h1 h2 h3 v).trans ⟨fun g θ ζ => ?_, fun g c hc hd θ ζ => ?_⟩
    · have := g 0 (by simp [Dims.shape, d2]) rfl θ ζ
      simp only [List.mem_cons, List.not_mem_nil, or_false, forall_eq_or_imp, forall_eq]
      exact this
    · have hc0 : c < 3 := by simpa [Dims.shape, d2] using hc
      obtain rfl | rfl | rfl : c = 0 ∨ c = 1 ∨ c = 2 := by omega
      · exact ⟨g θ ζ 0 (by simp), g θ ζ 1 (by simp)⟩
      · simp [isDeriv] at hd
      · simp [isDeriv] at hd
  · refine (boundary_trace_range (k := 3) (by simp) hq ⟨S, hS⟩ S.L3 m3 hty h1 h2 h3 v).mpr ?_
    intro c hc hd
    simp [isDeriv] at hd

/-- Case: the standard case. -/
example := C26_sequence_exact (Case.adm false true) rfl

end Mrx.Props
