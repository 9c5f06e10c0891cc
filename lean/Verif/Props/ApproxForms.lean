import Verif.Props.Approx

/-!
# C100, continued: discrete 0-forms and the L2 projection
-/

set_option linter.unusedSectionVars false
set_option linter.unusedVariables false

namespace Mrx.Props
open Finset Mrx.Spec Mrx Matrix DeRham Quad

theorem DirOK.unity {n p q : Nat} {ty : String} (hd : DirOK n p q ty) : AngularUnity n p ty := by
  rcases hd with ⟨e, _, b, c, _⟩ | ⟨e, a, b, c, d, _⟩ | ⟨e, a, _⟩
  · exact Or.inr (Or.inr ⟨e, b, c⟩)
  · exact Or.inl ⟨e, a, b, c, d⟩
  · exact Or.inr (Or.inl ⟨e, a⟩)

/-- In one direction: a point for each basis function, near every place where the function is not zero. -/
theorem dir_reps {n p q : Nat} {ty : String} (h : DirOK n p q ty) {s : SplineBasis ℝ} (hs : SplineBasis.mk? n p ty = .ok s) :
    ∃ ξ : Nat → ℝ, (∀ i, 0 ≤ ξ i ∧ ξ i ≤ 1) ∧ (ty = "clamped" → ξ 0 = 0 ∧ ξ (n - 1) = 1) ∧
      ∀ i < n, ∀ x, 0 ≤ x → x ≤ 1 → s.evaluate x (i : Int) ≠ 0 → NearDir ty (reach n p ty) x (ξ i) := by
  rcases h with ⟨rfl, a, b, c, _⟩ | ⟨rfl, a, b, c, d, _⟩ | ⟨rfl, rfl, _⟩
  · refine ⟨grev n p, fun i => grev_mem n p i a b, fun _ => grev_ends n p a b, fun i hi x _ _ hx => Or.inr ⟨by decide, ?_⟩⟩
    unfold reach
    rw [if_pos rfl]
    exact grev_near n p a b c hs x i hi hx
  · refine ⟨pcentre n p, fun i => ⟨Int.fract_nonneg _, (Int.fract_lt_one _).le⟩, fun hc => absurd hc (by decide), fun i hi x _ _ hx => Or.inl ⟨rfl, ?_⟩⟩
    unfold reach
    rw [if_neg (by decide), if_pos rfl]
    exact pcentre_near n p a c b d hs x i hi hx
  · refine ⟨fun _ => 0, fun _ => ⟨le_rfl, zero_le_one⟩, fun hc => absurd hc (by decide), fun i _ x h0 h1 _ => Or.inr ⟨by decide, ?_⟩⟩
    unfold reach
    rw [if_neg (by decide), if_neg (by decide), sub_zero, abs_of_nonneg h0]
    exact h1

/-- The two innermost clamped splines live on the first two elements. -/
theorem inner_support (n p : Nat) (h : p < n) (hfine : n - p ≤ 99900) {s : SplineBasis ℝ}
    (hs : SplineBasis.mk? n p "clamped" = .ok s) (x : ℝ) (i : Nat) (hi : i < n) (h1 : i ≤ 1) (hx : s.evaluate x (i : Int) ≠ 0) :
    x ≤ 2 / ((n : ℝ) - p) := by
  have hn : (0 : ℝ) < (n : ℝ) - p := by have : (p : ℝ) < n := by exact_mod_cast h
                                        linarith
  have sup : x ≤ clampedKnot ℝ n p (i + p + 1) := by
    by_contra hc
    refine hx (C04_clamped_support n p h hfine s hs x i hi (Or.inr ?_))
    rw [of_mk?_clamped h hs]
    dsimp only
    rw [get_clampedList n p h]
    exact not_le.mp hc
  have := clampedKnot_step n p p (i + 1) h
  rw [clampedKnot_zero n p p le_rfl, sub_zero, show p + (i + 1) = i + p + 1 by omega] at this
  refine sup.trans (this.trans ?_)
  refine div_le_div_of_nonneg_right ?_ hn.le
  have : (i : ℝ) ≤ 1 := by exact_mod_cast h1
  push_cast
  linarith

section
variable {ns ps : Nat × Nat × Nat} {q : Nat} {types : String × String × String} {F : V3 → V3} {polar dirichlet : Bool} {D : DeRham}

/-- `x` and `y` are within the resolution of the sequence in each direction. -/
def Near3 (ns ps : Nat × Nat × Nat) (types : String × String × String) (x y : ℝ × ℝ × ℝ) : Prop :=
  NearDir types.1 (reach ns.1 ps.1 types.1) x.1 y.1 ∧ NearDir types.2.1 (reach ns.2.1 ps.2.1 types.2.1) x.2.1 y.2.1 ∧
    NearDir types.2.2 (reach ns.2.2 ps.2.2 types.2.2) x.2.2 y.2.2

theorem E0_range (h : Admissible ns ps q types F polar dirichlet D) (v : Fin D.S.L0.dims.n → ℝ)
    (hP : polar = true → Polar0 ns.1 ns.2.1 ns.2.2 dirichlet (coef D.S.L0.dims v 0))
    (hB : polar = false → dirichlet = true → ∀ j < ns.2.1, ∀ l < ns.2.2, coef D.S.L0.dims v 0 0 j l = 0 ∧ coef D.S.L0.dims v 0 (ns.1 - 1) j l = 0) :
    ∃ u, D.E0ᵀ *ᵥ u = v := by
  obtain ⟨m0, _, _, _, hQ⟩ := Seq.mk?_inv (Admissible.seq h.built)
  obtain ⟨k0, _⟩ := h.degrees
  obtain ⟨hk, hd, s0, s1, s2, _⟩ := Form.mk?_inv m0
  obtain ⟨S, hS, ⟨hp, rfl⟩ | ⟨hp, rfl⟩⟩ := Admissible.cases' h.built
  · obtain ⟨tr, tt, tz, nr, nt⟩ := h.polar hp
    have hty : types = ("clamped", "periodic", types.2.2) := by rw [← tr, ← tt]
    have hS' : PolarSetting 0 ns ps types.2.2 S.L0 := ⟨by rw [← hty]; exact m0, nr, Or.inl rfl⟩
    refine (C28_range_is_polar_forms 0 ns ps types.2.2 S.L0 hS' dirichlet v).mpr ?_
    unfold PolarForm
    rw [if_pos rfl]
    exact hP hp
  · refine ⟨(BoundaryOp.mk S.L0.dims (bcTypes dirichlet)).matrix *ᵥ v, funext fun c => ?_⟩
    obtain ⟨c1, c2⟩ := C26_projection (BoundaryOp.mk S.L0.dims (bcTypes dirichlet)) (Or.inl k0) v c
    by_cases hc : Kept S.L0.dims (bcTypes dirichlet) (S.L0.dims.unravelIndex c)
    · exact c1 hc
    · refine (c2 hc).trans ?_
      have hdims : (DeRham.ofBoundary S F dirichlet).S.L0.dims = S.L0.dims := rfl
      have hkv : Dims.validDegree S.L0.dims.k := by
        have : S.L0.dims.k = 0 := k0
        rw [this]; exact hk
      obtain ⟨hr, he⟩ := S.L0.dims.unravelIndex_inRange hkv c.isLt
      obtain ⟨w, hw⟩ : ∃ w, w = S.L0.dims.unravelIndex c := ⟨_, rfl⟩
      rw [← hw] at hr he hc
      have hk0 : S.L0.dims.k = 0 := k0
      have hd' : S.L0.dims = _ := hd
      have hcs : S.L0.dims.cshape w.1 = if w.1 = 0 then (ns.1, ns.2.1, ns.2.2) else S.L0.dims.cshape w.1 := by
        split_ifs with hz
        · rw [hz]
          simp only [Dims.cshape, Dims.shape, hk0, if_true]
          rw [hd']; rfl
        · rfl
      have hw0 : w.1 = 0 := by
        by_contra hne
        unfold Dims.InRange at hr
        have : S.L0.dims.cshape w.1 = (0, 0, 0) := by
          unfold Dims.cshape Dims.shape
          rw [if_pos hk0]
          rcases hw1 : w.1 with _ | m
          · exact absurd hw1 hne
          · simp
        rw [this] at hr
        simp at hr
      rw [hw0, if_pos rfl] at hcs
      unfold Dims.InRange at hr
      rw [hw0, hcs] at hr
      have hv : v c = coef S.L0.dims v 0 w.2.1 w.2.2.1 w.2.2.2 := by
        unfold coef
        have he' : S.L0.dims.ravelIndex 0 w.2.1 w.2.2.1 w.2.2.2 = c := by rw [← he, hw0]
        rw [dif_pos (by rw [he']; exact c.isLt)]
        congr 1
        exact Fin.ext he'.symm
      rcases Bool.eq_false_or_eq_true dirichlet with hdir | hdir
      · have b := hB hp hdir w.2.2.1 hr.2.1 w.2.2.2 hr.2.2
        have hnr : S.L0.dims.nr = ns.1 := by rw [hd']
        have : w.2.1 = 0 ∨ w.2.1 = ns.1 - 1 := by
          by_contra hn
          refine hc ⟨Or.inr ⟨fun _ e => hn (Or.inl e), fun _ e => hn (Or.inr ?_)⟩, Or.inr ?_, Or.inr ?_⟩
          · rw [hnr] at e; omega
          · unfold Keeps1 LeftConstrained RightConstrained bcTypes; rw [hdir]; simp
          · unfold Keeps1 LeftConstrained RightConstrained bcTypes; rw [hdir]; simp
        rw [hv]
        rcases this with e | e <;> rw [e]
        · exact b.1.symm
        · exact b.2.symm
      · exfalso
        refine hc ?_
        unfold Kept Keeps1 LeftConstrained RightConstrained bcTypes
        rw [hdir]
        simp

/-- A 0-form with prescribed three-index coefficients that satisfy the conditions of the sequence. -/
theorem zeroform_coef (h : Admissible ns ps q types F polar dirichlet D) (C : Nat → Nat → Nat → ℝ)
    (hP : polar = true → Polar0 ns.1 ns.2.1 ns.2.2 dirichlet C)
    (hB : polar = false → dirichlet = true → ∀ j < ns.2.1, ∀ l < ns.2.2, C 0 j l = 0 ∧ C (ns.1 - 1) j l = 0) :
    ∃ u : Fin D.m0 → ℝ, ∀ i < ns.1, ∀ j < ns.2.1, ∀ l < ns.2.2, coef D.S.L0.dims (D.E0ᵀ *ᵥ u) 0 i j l = C i j l := by
  obtain ⟨m0, _, _, _, hQ⟩ := Seq.mk?_inv (Admissible.seq h.built)
  obtain ⟨hk, hd, s0, s1, s2, _⟩ := Form.mk?_inv m0
  have hk0 : D.S.L0.dims.k = 0 := by rw [hd]
  have hkv : Dims.validDegree D.S.L0.dims.k := by rw [hk0]; exact hk
  have hc : D.S.L0.dims.cshape 0 = (ns.1, ns.2.1, ns.2.2) := by
    simp only [Dims.cshape, Dims.shape, hk0, if_true]
    rw [hd]; rfl
  obtain ⟨v, hv⟩ : ∃ v : Fin D.S.L0.dims.n → ℝ, v = fun a : Fin D.S.L0.dims.n => C (D.S.L0.dims.unravelIndex a).2.1 (D.S.L0.dims.unravelIndex a).2.2.1 (D.S.L0.dims.unravelIndex a).2.2.2 := ⟨_, rfl⟩
  have cv : ∀ i < ns.1, ∀ j < ns.2.1, ∀ l < ns.2.2, coef D.S.L0.dims v 0 i j l = C i j l := by
    intro i hi j hj l hl
    have hin : D.S.L0.dims.InRange 0 i j l := by
      unfold Dims.InRange
      rw [hc]
      exact ⟨hi, hj, hl⟩
    rw [hv]
    unfold coef
    rw [dif_pos (Dims.ravelIndex_lt _ hkv hin)]
    simp only [Dims.unravelIndex_ravelIndex _ hkv hin]
  have nr : polar = true → 3 ≤ ns.1 := fun hp => (h.polar hp).2.2.2.1
  have nr1 : 1 ≤ ns.1 := by
    rcases h.r with ⟨_, a, b, _⟩ | ⟨_, _, _, a, _⟩ | ⟨_, a, _⟩ <;> omega
  obtain ⟨u, hu⟩ := E0_range h v (fun hp => by
      obtain ⟨⟨a, b, c, habc⟩, hdir⟩ := hP hp
      refine ⟨⟨a, b, c, fun j hj l hl => ?_⟩, fun hd j hj l hl => ?_⟩
      · rw [cv 0 (by omega) j hj l hl, cv 1 (by have := nr hp; omega) j hj l hl]
        exact habc j hj l hl
      · rw [cv _ (by omega) j hj l hl]
        exact hdir hd j hj l hl)
    (fun hp hd j hj l hl => by
      rw [cv 0 (by omega) j hj l hl, cv _ (by omega) j hj l hl]
      exact hB hp hd j hj l hl)
  exact ⟨u, by rw [hu]; exact cv⟩

/-- The values of this 0-form. -/
theorem zeroform_range (h : Admissible ns ps q types F polar dirichlet D) (C : Nat → Nat → Nat → ℝ)
    (hP : polar = true → Polar0 ns.1 ns.2.1 ns.2.2 dirichlet C)
    (hB : polar = false → dirichlet = true → ∀ j < ns.2.1, ∀ l < ns.2.2, C 0 j l = 0 ∧ C (ns.1 - 1) j l = 0) :
    ∃ u : Fin D.m0 → ℝ, ∀ x,
    D.phys0 u (toV3 x) 0 = ∑ i ∈ range ns.1, ∑ j ∈ range ns.2.1, ∑ l ∈ range ns.2.2, C i j l
      * (D.S.L0.Λ0.evaluate x.1 i * D.S.L0.Λ1.evaluate x.2.1 j * D.S.L0.Λ2.evaluate x.2.2 l) := by
  obtain ⟨u, cv⟩ := zeroform_coef h C hP hB
  refine ⟨u, fun x => ?_⟩
  rw [zeroform_value' h]
  exact sum_congr rfl fun i hi => sum_congr rfl fun j hj => sum_congr rfl fun l hl => by
    rw [cv i (mem_range.mp hi) j (mem_range.mp hj) l (mem_range.mp hl)]

/-- **C100** Discrete 0-forms, every sequence (polar or not, with or without Dirichlet condition): if `f`
varies by at most `ε` between points of the logical cube within the resolution (half a spline support in each
direction, circular in the periodic ones), between the points of the two innermost rings of elements and the
axis on polar sequences, and vanishes where the Dirichlet condition is imposed, then some discrete 0-form is
within `ε` of `f` everywhere in the cube. -/
theorem C100_zeroform (h : Admissible ns ps q types F polar dirichlet D) (f : ℝ × ℝ × ℝ → ℝ) (ε : ℝ)
    (hf : ∀ x y, InCube x → InCube y → Near3 ns ps types x y → |f x - f y| ≤ ε)
    (haxis : polar = true → ∀ x y, InCube x → InCube y → x.1 ≤ 2 / ((ns.1 : ℝ) - ps.1) → y.1 = 0 →
      NearDir types.2.2 (reach ns.2.2 ps.2.2 types.2.2) x.2.2 y.2.2 → |f x - f y| ≤ ε)
    (hbc : dirichlet = true → types.1 = "clamped" ∧ ∀ x, InCube x → x.1 = 1 ∨ (polar = false ∧ x.1 = 0) → f x = 0) :
    ∃ u : Fin D.m0 → ℝ, ∀ x, InCube x → |f x - D.phys0 u (toV3 x) 0| ≤ ε := by
  obtain ⟨m0, _, _, _, hQ⟩ := Seq.mk?_inv (Admissible.seq h.built)
  obtain ⟨hk, hd, s0, s1, s2, _⟩ := Form.mk?_inv m0
  obtain ⟨ξ, ξm, ξe, ξn⟩ := dir_reps h.r s0
  obtain ⟨η, ηm, _, ηn⟩ := dir_reps h.t s1
  obtain ⟨ζ, ζm, _, ζn⟩ := dir_reps h.z s2
  obtain ⟨C, hC⟩ : ∃ C : Nat → Nat → Nat → ℝ, C = fun i j l => if polar = true ∧ i ≤ 1 then f (0, 0, ζ l) else f (ξ i, η j, ζ l) := ⟨_, rfl⟩
  have cube : ∀ i j l, InCube (ξ i, η j, ζ l) := fun i j l => ⟨ξm i, ηm j, ζm l⟩
  have acube : ∀ l, InCube (0, 0, ζ l) := fun l => ⟨⟨le_rfl, zero_le_one⟩, ⟨le_rfl, zero_le_one⟩, ζm l⟩
  obtain ⟨u, hu⟩ := zeroform_range h C
    (fun hp => by
      refine ⟨⟨fun l => f (0, 0, ζ l), fun _ => 0, fun _ => 0, fun j hj l hl => ?_⟩, fun hd j hj l hl => ?_⟩
      · rw [hC]
        simp [hp]
      · have n3 := (h.polar hp).2.2.2.1
        obtain ⟨tc, hz⟩ := hbc hd
        rw [hC]
        beta_reduce
        rw [if_neg (by omega)]
        exact hz _ (cube _ _ _) (Or.inl (ξe tc).2))
    (fun hp hd j hj l hl => by
      obtain ⟨tc, hz⟩ := hbc hd
      rw [hC]
      beta_reduce
      rw [if_neg (by simp [hp]), if_neg (by simp [hp])]
      exact ⟨hz _ (cube _ _ _) (Or.inr ⟨hp, (ξe tc).1⟩), hz _ (cube _ _ _) (Or.inl (ξe tc).2)⟩)
  refine ⟨u, fun x hx => ?_⟩
  rw [hu x]
  have e : ∑ i ∈ range ns.1, ∑ j ∈ range ns.2.1, ∑ l ∈ range ns.2.2, C i j l
      * (D.S.L0.Λ0.evaluate x.1 i * D.S.L0.Λ1.evaluate x.2.1 j * D.S.L0.Λ2.evaluate x.2.2 l)
      = ∑ i ∈ range ns.1, (∑ j ∈ range ns.2.1, (∑ l ∈ range ns.2.2, C i j l * D.S.L0.Λ2.evaluate x.2.2 l) * D.S.L0.Λ1.evaluate x.2.1 j)
        * D.S.L0.Λ0.evaluate x.1 i := by
    refine sum_congr rfl fun i _ => ?_
    rw [sum_mul]
    refine sum_congr rfl fun j _ => ?_
    rw [sum_mul, sum_mul]
    exact sum_congr rfl fun l _ => by ring
  rw [e]
  have U0 := DirOK.unity h.r
  have U1 := DirOK.unity h.t
  have U2 := DirOK.unity h.z
  refine convex_close (fun i hi => U0.nonneg s0 _ hx.1.1 hx.1.2 i hi) (U0.sum s0 _ hx.1.1 hx.1.2) _ _ _ fun i hi hi0 => ?_
  refine convex_close (fun j hj => U1.nonneg s1 _ hx.2.1.1 hx.2.1.2 j hj) (U1.sum s1 _ hx.2.1.1 hx.2.1.2) _ _ _ fun j hj hj0 => ?_
  refine convex_close (fun l hl => U2.nonneg s2 _ hx.2.2.1 hx.2.2.2 l hl) (U2.sum s2 _ hx.2.2.1 hx.2.2.2) _ _ _ fun l hl hl0 => ?_
  rw [hC]
  beta_reduce
  have n2 := ζn l hl _ hx.2.2.1 hx.2.2.2 hl0
  split_ifs with hp
  · obtain ⟨hp, hi1⟩ := hp
    obtain ⟨tr, _⟩ := h.polar hp
    refine haxis hp x _ hx (acube l) ?_ rfl n2
    rcases h.r with ⟨_, _, b, c, _⟩ | ⟨e, _⟩ | ⟨e, _⟩
    · rw [tr] at s0
      exact inner_support ns.1 ps.1 b c s0 x.1 i hi hi1 hi0
    · rw [tr] at e; exact absurd e (by decide)
    · rw [tr] at e; exact absurd e (by decide)
  · exact hf x _ hx (cube i j l) ⟨ξn i hi _ hx.1.1 hx.1.2 hi0, ηn j hj _ hx.2.1.1 hx.2.1.2 hj0, n2⟩

/-! ## The L2 projection -/

/-- The quadrature volume of the domain. -/
noncomputable def quadVolume (D : DeRham) (F : V3 → V3) : ℝ := ∑ i ∈ range D.S.Q.w.length, jacobianDeterminant F (toV3 (D.S.Q.x.getD i 0)) * D.S.Q.w.getD i 0

theorem l2_le_of_le {d : Nat} (h : Admissible ns ps q types F polar dirichlet D) (g : V3 → Fin d → ℝ) (B : ℝ)
    (hg : ∀ x, InCube x → g (toV3 x) ⬝ᵥ g (toV3 x) ≤ B) : l2Product g g D.S.Q F ≤ B * quadVolume D F := by
  rw [h.l2_eq]
  have e : quadVolume D F = ∑ j ∈ range D.nq, (jacfwd F (D.x j)).det * D.w j := rfl
  rw [e, mul_sum]
  refine sum_le_sum fun j hj => mul_le_mul_of_nonneg_right (hg _ (points_in_cube h _ (h.pointAt (mem_range.mp hj)).2)) ?_
  have hw := w_pos h.core (mem_range.mp hj)
  have hJ := h.regular _ (h.pointAt (mem_range.mp hj)).2
  exact mul_nonneg (le_trans (by norm_num) hJ) hw.le

/-- **C100** The L2 projection `solve(M0, P0(f))` is at most `ε √volume` away from `f` in the quadrature L2 norm. -/
theorem C100_zeroform_projection (h : Admissible ns ps q types F polar dirichlet D) (f : V3 → Fin 1 → ℝ) (ε : ℝ)
    (hf : ∀ x y, InCube x → InCube y → Near3 ns ps types x y → |f (toV3 x) 0 - f (toV3 y) 0| ≤ ε)
    (haxis : polar = true → ∀ x y, InCube x → InCube y → x.1 ≤ 2 / ((ns.1 : ℝ) - ps.1) → y.1 = 0 →
      NearDir types.2.2 (reach ns.2.2 ps.2.2 types.2.2) x.2.2 y.2.2 → |f (toV3 x) 0 - f (toV3 y) 0| ≤ ε)
    (hbc : dirichlet = true → types.1 = "clamped" ∧ ∀ x, InCube x → x.1 = 1 ∨ (polar = false ∧ x.1 = 0) → f (toV3 x) 0 = 0) :
    l2Product (fun x => f x - D.phys0 (D.M0⁻¹ *ᵥ D.projector0 f) x) (fun x => f x - D.phys0 (D.M0⁻¹ *ᵥ D.projector0 f) x) D.S.Q F
      ≤ ε ^ 2 * quadVolume D F := by
  obtain ⟨u, hu⟩ := C100_zeroform h (fun x => f (toV3 x) 0) ε hf haxis hbc
  obtain ⟨best, _, _, _, pos, _⟩ := C36_best_approximation h
  have e := best f u
  have p := (pos (u - D.M0⁻¹ *ᵥ D.projector0 f)).1
  have b := l2_le_of_le h (fun x => f x - D.phys0 u x) (ε ^ 2) fun x hx => by
    have := hu x hx
    simp only [dotProduct, univ_unique, Fin.default_eq_zero, Fin.isValue, Pi.sub_apply, sum_singleton]
    rw [← sq, ← sq_abs]
    exact pow_le_pow_left₀ (abs_nonneg _) this 2
  linarith

/-- Non-vacuity: `1 - r²` on a polar sequence with Dirichlet condition, and 202 quadratic splines in the radius. -/
example : ∃ D, Admissible (202, 8, 1) (2, 2, 0) 3 ("clamped", "periodic", "constant") (fun y => y) true true D ∧
    ∃ u : Fin D.m0 → ℝ, ∀ x, InCube x → |1 - x.1 ^ 2 - D.phys0 u (toV3 x) 0| ≤ 3 / 200 := by
  obtain ⟨D, h⟩ := Admissible.exists (ns := (202, 8, 1)) (ps := (2, 2, 0)) (q := 3) (types := ("clamped", "periodic", "constant"))
    (fun y => y) true true (by norm_num) (by unfold DirOK; norm_num) (by unfold DirOK; norm_num) (by unfold DirOK; norm_num)
    (by intro _; simp) fun x => by rw [jacobianDeterminant_id]; norm_num
  refine ⟨D, h, C100_zeroform h (fun x => 1 - x.1 ^ 2) (3 / 200) ?_ ?_ ?_⟩
  · intro x y hx hy hxy
    rcases hxy.1 with ⟨hc, _⟩ | ⟨_, hn⟩
    · exact absurd hc (by decide)
    · have hr : reach 202 2 "clamped" = 3 / 400 := by
        unfold reach
        rw [if_pos rfl]
        norm_num
      rw [hr, abs_le] at hn
      rw [abs_le]
      have a := hx.1
      have b := hy.1
      constructor <;> nlinarith [mul_nonneg a.1 b.1]
  · intro _ x y hx _ h1 h2 _
    have : x.1 ≤ 1 / 100 := h1.trans (by norm_num)
    beta_reduce
    rw [h2, abs_le]
    have a := hx.1
    constructor <;> nlinarith
  · intro _
    refine ⟨rfl, fun x _ hx => ?_⟩
    rcases hx with e | ⟨hc, _⟩
    · rw [e]; norm_num
    · cases hc

end

end Mrx.Props
