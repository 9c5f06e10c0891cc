import Verif.Proofs.Case
import Verif.Props.Pointwise
import Verif.Props.Laplace

/-!
# C76: the discrete gradient of constants
-/

set_option linter.unusedSectionVars false
set_option linter.unusedVariables false
set_option linter.unusedSimpArgs false

namespace Mrx.Props
open Finset Spec Matrix DeRham

/-! ### Row sums of the difference operators of the getters -/

theorem rowR (d : Dims) (hr : 2 ≤ d.nr) (hdr : d.dr = d.nr - 1) (i : Nat) (hi : i < d.dr) :
    ∑ m ∈ range d.nr, δr d i m = 1 - (if i + 1 ≠ d.nt then 1 else 0) - (if i + 2 = d.nr ∧ d.nr ≠ d.nt then 1 else 0) := by
  have e : ∀ m ∈ range d.nr, δr d i m = (if m = i + 1 then (1 : ℝ) else 0) - (if m = i then (if i + 1 ≠ d.nt then 1 else 0) else 0)
      - (if m = d.nr - 1 then (if i + 2 = d.nr ∧ d.nr ≠ d.nt then 1 else 0) else 0) := by
    intro m hm
    rw [mem_range] at hm
    unfold δr
    rw [hdr]
    have a : (0 < m ∧ i = min (m - 1) (d.nr - 1 - 1)) ↔ m = i + 1 := by omega
    simp only [a]
    rw [sub_sub]
    congr 1
    by_cases h1 : m = i
    · have : ¬ m = d.nr - 1 := by omega
      rw [if_pos h1, if_neg this, add_zero]
      exact if_congr (by omega) rfl rfl
    · rw [if_neg h1, zero_add]
      by_cases h2 : m = d.nr - 1
      · rw [if_pos h2]
        exact if_congr (by omega) rfl rfl
      · rw [if_neg h2, if_neg (by omega)]
  rw [sum_congr rfl e, sum_sub_distrib, sum_sub_distrib, sum_ite_eq', sum_ite_eq', sum_ite_eq', if_pos (mem_range.mpr (by omega)),
    if_pos (mem_range.mpr (by omega)), if_pos (mem_range.mpr (by omega))]

/-- Row sums of the two angular operators: `a` is the row hit by the wrap-around. -/
theorem rowA (n dn a : Nat) (hn : 1 ≤ n) (hd : dn = n ∨ dn + 1 = n) (h1 : 1 ≤ dn) (i : Nat) (hi : i < dn) :
    ∑ m ∈ range n, ((if i = min (if 0 < m then m - 1 else a) (dn - 1) then (1 : ℝ) else 0) - (if i = min m (dn - 1) then 1 else 0))
      = (if i = min a (dn - 1) then 1 else 0) - (if i + 1 = dn then 1 else 0) := by
  have e : ∀ m ∈ range n, ((if i = min (if 0 < m then m - 1 else a) (dn - 1) then (1 : ℝ) else 0) - (if i = min m (dn - 1) then 1 else 0))
      = (if m = i + 1 then (1 : ℝ) else 0) + (if m = 0 then (if i = min a (dn - 1) then 1 else 0) else 0)
        - ((if m = i then (1 : ℝ) else 0) + (if m = n - 1 then (if i + 1 = dn ∧ dn + 1 = n then 1 else 0) else 0)) := by
    intro m hm
    rw [mem_range] at hm
    congr 1
    · by_cases h0 : m = 0
      · subst h0
        rw [if_neg (by omega : ¬ (0 = i + 1)), if_pos rfl, zero_add]
        simp
      · rw [if_neg h0, add_zero, if_pos (by omega : 0 < m)]
        exact if_congr (by omega) rfl rfl
    · by_cases h1 : m = i
      · rw [if_pos h1, if_pos (by omega)]
        by_cases h2 : m = n - 1
        · rw [if_pos h2, if_neg (by omega), add_zero]
        · rw [if_neg h2, add_zero]
      · rw [if_neg h1, zero_add]
        by_cases h2 : m = n - 1
        · rw [if_pos h2]; exact if_congr (by omega) rfl rfl
        · rw [if_neg h2, if_neg (by omega)]
  rw [sum_congr rfl e, sum_sub_distrib, sum_add_distrib, sum_add_distrib, sum_ite_eq', sum_ite_eq', sum_ite_eq', sum_ite_eq',
    if_pos (mem_range.mpr (by omega : 0 < n)), if_pos (mem_range.mpr (by omega : i < n)), if_pos (mem_range.mpr (by omega : n - 1 < n))]
  by_cases h2 : i + 1 = dn
  · rw [if_pos h2]
    rcases hd with hd | hd
    · rw [if_neg (by rw [mem_range]; omega), if_neg (by omega : ¬ (i + 1 = dn ∧ dn + 1 = n))]; ring
    · rw [if_pos (by rw [mem_range]; omega), if_pos (⟨h2, hd⟩ : i + 1 = dn ∧ dn + 1 = n)]; ring
  · rw [if_neg h2, if_pos (by rw [mem_range]; omega), if_neg (fun a => h2 a.1 : ¬ (i + 1 = dn ∧ dn + 1 = n))]; ring

section
variable {ns ps : Nat × Nat × Nat} {q : Nat} {types : String × String × String} {F : V3 → V3} {polar dirichlet : Bool} {D : DeRham}

/-- Without Dirichlet conditions the space of 0-forms contains the array of ones. -/
theorem ones_exist (h : Admissible ns ps q types F polar false D) :
    ∃ y : Fin D.m0 → ℝ, ∀ i j l, i < ns.1 → j < ns.2.1 → l < ns.2.2 → coef D.S.L0.dims (D.E0ᵀ *ᵥ y) 0 i j l = 1 := by
  have hd := h.dims0
  have hps := h.polarSettings
  have hpol := h.polar
  have hin : ∀ (d : Dims), d = ⟨0, ns.1, ns.2.1, ns.2.2, d.dr, d.dt, d.dz⟩ → ∀ i j l, i < ns.1 → j < ns.2.1 → l < ns.2.2 →
      coef d (fun _ => 1) 0 i j l = 1 := by
    intro d e i j l hi hj hl
    unfold coef
    rw [dif_pos]
    apply Dims.ravelIndex_lt
    · rw [e]; exact Or.inl rfl
    · rw [e]; exact ⟨hi, hj, hl⟩
  obtain ⟨S, hS, ⟨hp, rfl⟩ | ⟨hp, rfl⟩⟩ := Admissible.cases' h.built
  · have hs := (hps hp).1
    have e : S.L0.dims = ⟨0, ns.1, ns.2.1, ns.2.2, S.L0.dims.dr, S.L0.dims.dt, S.L0.dims.dz⟩ := by
      rw [show S.L0.dims = _ from hd]
    have c1 := hin S.L0.dims e
    obtain ⟨_, _, _, h3, _⟩ := hpol hp
    obtain ⟨u, hu⟩ := (C28_range_is_polar_forms 0 ns ps types.2.2 S.L0 hs false (fun _ => 1)).mpr (by
      simp only [PolarForm, if_true]
      refine ⟨⟨fun _ => 1, fun _ => 0, fun _ => 0, fun j hj l hl => ?_⟩, by simp⟩
      rw [c1 0 j l (by omega) hj hl, c1 1 j l (by omega) hj hl]
      simp)
    refine ⟨u, fun i j l hi hj hl => ?_⟩
    have : coef S.L0.dims ((PolarOp.mk S.L0.dims (getXi ns.2.1) false).matrixᵀ *ᵥ u) 0 i j l = 1 := by
      rw [hu]; exact c1 i j l hi hj hl
    exact this
  · have e : S.L0.dims = ⟨0, ns.1, ns.2.1, ns.2.2, S.L0.dims.dr, S.L0.dims.dt, S.L0.dims.dz⟩ := by
      rw [show S.L0.dims = _ from hd]
    have c1 := hin S.L0.dims e
    have hk : S.L0.dims.k = 0 ∨ S.L0.dims.k = 1 ∨ S.L0.dims.k = 2 ∨ S.L0.dims.k = 3 := by rw [e]; simp
    refine ⟨(BoundaryOp.mk S.L0.dims (bcTypes false)).matrix *ᵥ fun _ => 1, fun i j l hi hj hl => ?_⟩
    refine Eq.trans ?_ (c1 i j l hi hj hl)
    show coef S.L0.dims ((BoundaryOp.mk S.L0.dims (bcTypes false)).matrixᵀ *ᵥ _) 0 i j l = _
    congr 1
    funext c
    refine (C26_projection (BoundaryOp.mk S.L0.dims (bcTypes false)) hk (fun _ => 1) c).1 ?_
    unfold Kept
    simp [bcTypes, Keeps1, LeftConstrained, RightConstrained]

theorem DirOK.unity {n p q : Nat} {ty : String} (h : DirOK n p q ty) : AngularUnity n p ty := by
  unfold DirOK at h
  unfold AngularUnity
  rcases h with ⟨a, b, c, d, e⟩ | ⟨a, b, c, d, e, f⟩ | ⟨a, b, c⟩
  · exact Or.inr (Or.inr ⟨a, c, d⟩)
  · exact Or.inl ⟨a, b, c, d, e⟩
  · exact Or.inr (Or.inl ⟨a, b⟩)

/-- The array of ones is the constant function. -/
theorem ones_value (h : Admissible ns ps q types F polar dirichlet D) (y : Fin D.m0 → ℝ)
    (hy : ∀ i j l, i < ns.1 → j < ns.2.1 → l < ns.2.2 → coef D.S.L0.dims (D.E0ᵀ *ᵥ y) 0 i j l = 1) (x : ℝ × ℝ × ℝ)
    (h0 : 0 ≤ x.1 ∧ x.1 ≤ 1) (h1 : 0 ≤ x.2.1 ∧ x.2.1 ≤ 1) (h2 : 0 ≤ x.2.2 ∧ x.2.2 ≤ 1) :
    discreteFunction D.S.L0 y D.E0 x 0 = 1 := by
  obtain ⟨m0, _⟩ := Seq.mk?_inv (Admissible.seq h.built)
  obtain ⟨hk, hd, s0, s1, s2, _⟩ := Form.mk?_inv m0
  have hk0 : D.S.L0.dims.k = 0 := by rw [hd]
  rw [discreteFunction_eq_sum D.S.L0 (Form.mk?_wf m0) _ _ _ 0 (by simp [Dims.shape, hk0])]
  have hc : D.S.L0.dims.cshape 0 = (ns.1, ns.2.1, ns.2.2) := by
    simp only [Dims.cshape, Dims.shape, hk0, if_true]
    rw [hd]; rfl
  rw [hc]
  simp only [basisValue, isDeriv, hk0, factor]
  have : ∀ i ∈ range ns.1, ∀ j ∈ range ns.2.1, ∀ l ∈ range ns.2.2, coef D.S.L0.dims (D.E0ᵀ *ᵥ y) 0 i j l = 1 := fun i hi j hj l hl =>
    hy i j l (mem_range.mp hi) (mem_range.mp hj) (mem_range.mp hl)
  rw [sum_congr rfl fun i hi => sum_congr rfl fun j hj => sum_congr rfl fun l hl => by rw [this i hi j hj l hl, one_mul]]
  simp
  simp only [← mul_sum, ← sum_mul]
  rw [(DirOK.unity h.z).sum s2 _ h2.1 h2.2]
  simp only [mul_one, ← mul_sum, ← sum_mul]
  rw [(DirOK.unity h.t).sum s1 _ h1.1 h1.2]
  simp only [mul_one]
  exact (DirOK.unity h.r).sum s0 _ h0.1 h0.2

/-- **C76** (the exact domain of the bug) Without Dirichlet conditions the constant function is a discrete 0-form. Its discrete gradient
vanishes, and the Laplacian annihilates it, exactly if the number of radial splines is that of poloidal ones or one more and there are
at least as many poloidal splines as axial derivative splines. For all other resolutions `strong_grad @ 1 != 0`. -/
theorem C76_gradient_of_constants (h : Admissible ns ps q types F polar false D) (hty : types.1 = "clamped") :
    ∃ y : Fin D.m0 → ℝ, (∀ x : ℝ × ℝ × ℝ, (0 ≤ x.1 ∧ x.1 ≤ 1) → (0 ≤ x.2.1 ∧ x.2.1 ≤ 1) → (0 ≤ x.2.2 ∧ x.2.2 ≤ 1) →
        discreteFunction D.S.L0 y D.E0 x 0 = 1) ∧
      (D.strongGrad *ᵥ y = 0 ↔ (ns.1 = ns.2.1 ∨ ns.1 = ns.2.1 + 1) ∧ Form.dsize ns.2.2 types.2.2 ≤ ns.2.1) ∧
      (D.dd0 *ᵥ y = 0 ↔ (ns.1 = ns.2.1 ∨ ns.1 = ns.2.1 + 1) ∧ Form.dsize ns.2.2 types.2.2 ≤ ns.2.1) := by
  obtain ⟨y, hy⟩ := ones_exist h
  have hw := h.complex.q.wf
  have hd := h.dims0
  have hd1 := (Seq.nr_eq hw).1
  have hne := h.nonEmpty
  have hk0 : D.S.L0.dims.k = 0 := by rw [hd]
  have enr : D.S.L0.dims.nr = ns.1 := by rw [hd]
  have ent : D.S.L0.dims.nt = ns.2.1 := by rw [hd]
  have enz : D.S.L0.dims.nz = ns.2.2 := by rw [hd]
  have edr : D.S.L0.dims.dr = D.S.L0.dims.nr - 1 := by rw [hd]; simp [Form.dsize, hty]
  have edz : D.S.L0.dims.dz = Form.dsize ns.2.2 types.2.2 := by rw [hd]
  have o1 := hne.r
  have o2 := hne.t
  have o3 := hne.z
  have sz : ∀ n ty, 1 ≤ Form.dsize n ty → (Form.dsize n ty = n ∨ Form.dsize n ty + 1 = n) ∧ 1 ≤ n := by
    intro n ty; unfold Form.dsize; split_ifs <;> omega
  have tt : (D.S.L0.dims.dt = D.S.L0.dims.nt ∨ D.S.L0.dims.dt + 1 = D.S.L0.dims.nt) ∧ 1 ≤ D.S.L0.dims.nt := by
    rw [hd] at o2 ⊢; exact sz _ _ o2
  have zz : (D.S.L0.dims.dz = D.S.L0.dims.nz ∨ D.S.L0.dims.dz + 1 = D.S.L0.dims.nz) ∧ 1 ≤ D.S.L0.dims.nz := by
    rw [hd] at o3 ⊢; exact sz _ _ o3
  have r2 : 2 ≤ D.S.L0.dims.nr := by omega
  rw [← enr, ← ent, ← edz]
  rw [← enr, ← ent, ← enz] at hy
  obtain ⟨d, hdd⟩ : ∃ d, d = D.S.L0.dims := ⟨_, rfl⟩
  obtain ⟨C, hC⟩ : ∃ C, C = coef D.S.L0.dims (D.E0ᵀ *ᵥ y) := ⟨_, rfl⟩
  rw [← hC] at hy
  obtain ⟨c0, c1, c2⟩ := code0 hk0 C
  have vR : ∀ i j l, j < D.S.L0.dims.nt → l < D.S.L0.dims.nz → dR D.S.L0.dims (C 0) i j l = ∑ m ∈ range D.S.L0.dims.nr, δr D.S.L0.dims i m := by
    intro i j l hj hl
    exact sum_congr rfl fun m hm => by rw [hy m j l (mem_range.mp hm) hj hl, mul_one]
  have vT : ∀ i j l, i < D.S.L0.dims.nr → l < D.S.L0.dims.nz → dT D.S.L0.dims (C 0) i j l = ∑ m ∈ range D.S.L0.dims.nt, δt D.S.L0.dims j m := by
    intro i j l hj hl
    exact sum_congr rfl fun m hm => by rw [hy i m l hj (mem_range.mp hm) hl, mul_one]
  have vZ : ∀ i j l, i < D.S.L0.dims.nr → j < D.S.L0.dims.nt → dZ D.S.L0.dims (C 0) i j l = ∑ m ∈ range D.S.L0.dims.nz, δz D.S.L0.dims l m := by
    intro i j l hj hl
    exact sum_congr rfl fun m hm => by rw [hy i j m hj hl (mem_range.mp hm), mul_one]
  have key : D.strongGrad *ᵥ y = 0 ↔
      (D.S.L0.dims.nr = D.S.L0.dims.nt ∨ D.S.L0.dims.nr = D.S.L0.dims.nt + 1) ∧ D.S.L0.dims.dz ≤ D.S.L0.dims.nt := by
    have hg := (h.complex.grad y).2
    rw [← hC] at hg
    have q0 : ∀ i j l, D.S.L1.dims.InRange 0 i j l ↔ i < D.S.L0.dims.dr ∧ j < D.S.L0.dims.nt ∧ l < D.S.L0.dims.nz := by
      intro i j l; simp [Dims.InRange, Dims.cshape, Dims.shape, hd1]
    have q1 : ∀ i j l, D.S.L1.dims.InRange 1 i j l ↔ i < D.S.L0.dims.nr ∧ j < D.S.L0.dims.dt ∧ l < D.S.L0.dims.nz := by
      intro i j l; simp [Dims.InRange, Dims.cshape, Dims.shape, hd1]
    have q2 : ∀ i j l, D.S.L1.dims.InRange 2 i j l ↔ i < D.S.L0.dims.nr ∧ j < D.S.L0.dims.nt ∧ l < D.S.L0.dims.dz := by
      intro i j l; simp [Dims.InRange, Dims.cshape, Dims.shape, hd1]
    constructor
    · intro h0
      have z : ∀ c i j l, coef D.S.L1.dims (D.E1ᵀ *ᵥ (D.strongGrad *ᵥ y)) c i j l = 0 := by
        intro c i j l; rw [h0, mulVec_zero]; unfold coef; split_ifs <;> rfl
      have a := hg 0 (D.S.L0.dims.dr - 1) 0 0 ((q0 _ _ _).mpr ⟨by omega, by omega, by omega⟩)
      have b := hg 2 0 0 (D.S.L0.dims.dz - 1) ((q2 _ _ _).mpr ⟨by omega, by omega, by omega⟩)
      rw [z, c0, vR _ _ _ (by omega) (by omega), rowR _ r2 edr _ (by omega)] at a
      rw [z, c2, vZ _ _ _ (by omega) (by omega)] at b
      unfold δz at b
      rw [rowA _ _ _ zz.2 zz.1 o3 _ (by omega)] at b
      constructor
      · by_contra hcon
        rw [if_pos (by omega), if_pos (by omega)] at a
        norm_num at a
      · by_contra hcon
        rw [if_neg (by omega), if_pos (by omega)] at b
        norm_num at b
    · rintro ⟨g1, g2⟩
      apply h.complex.e1
      refine Seq.vec_zero_of_coef hw.f1.k _ fun c i j l hin => ?_
      rw [hg c i j l hin]
      have hcc := hin.comp_lt
      simp [Dims.shape, hd1] at hcc
      interval_cases c
      · obtain ⟨a1, a2, a3⟩ := (q0 _ _ _).mp hin
        rw [c0, vR _ _ _ a2 a3, rowR _ r2 edr _ a1]
        split_ifs <;> first | (exfalso; omega) | norm_num
      · obtain ⟨a1, a2, a3⟩ := (q1 _ _ _).mp hin
        rw [c1, vT _ _ _ a1 a3]
        unfold δt
        rw [rowA _ _ _ tt.2 tt.1 o2 _ a2]
        split_ifs <;> first | (exfalso; omega) | norm_num
      · obtain ⟨a1, a2, a3⟩ := (q2 _ _ _).mp hin
        rw [c2, vZ _ _ _ a1 a2]
        unfold δz
        rw [rowA _ _ _ zz.2 zz.1 o3 _ a3]
        split_ifs <;> first | (exfalso; omega) | norm_num
  refine ⟨y, fun x a b c => ones_value h y (by rw [← enr, ← ent, ← enz, ← hC]; exact hy) x a b c, key, ?_⟩
  rw [(C34_kernels_are_harmonic h).1]
  exact key

/-- Case: the standard case (where the two equivalent conditions hold). -/
example (polar : Bool) : ∃ y, (Case.D polar false).strongGrad *ᵥ y = 0 := by
  obtain ⟨y, _, h, _⟩ := C76_gradient_of_constants (Case.adm polar false) rfl
  exact ⟨y, h.mpr ⟨Or.inl rfl, by decide⟩⟩

/-- **C76** as it would be for all resolutions: the discrete gradient of the constant function vanishes. -/
def C76_constants_statement : Prop :=
  ∀ (ns ps : Nat × Nat × Nat) (q : Nat) (types : String × String × String) (F : V3 → V3) (polar : Bool) (D : DeRham),
    Admissible ns ps q types F polar false D → ∀ y : Fin D.m0 → ℝ,
      (∀ x : ℝ × ℝ × ℝ, (0 ≤ x.1 ∧ x.1 ≤ 1) → (0 ≤ x.2.1 ∧ x.2.1 ≤ 1) → (0 ≤ x.2.2 ∧ x.2.2 ≤ 1) → discreteFunction D.S.L0 y D.E0 x 0 = 1) →
      D.strongGrad *ᵥ y = 0

/-- **C76** (finding) it does not, for example for 5 x 6 x 4 splines. -/
theorem C76_constants_false : ¬ C76_constants_statement := by
  intro H
  obtain ⟨D, h⟩ := Admissible.example true false
  obtain ⟨y, hy, hg, _⟩ := C76_gradient_of_constants h rfl
  have := hg.mp (H _ _ _ _ _ _ _ h y hy)
  simp at this

end
end Mrx.Props
