import Verif.Proofs.Cohomology
import Verif.Proofs.CodeComplex3

/-!
# The complex of the code in terms of arrays, for all sizes

The radial difference operator of the getters for an arbitrary number `N` of radial and `M` of poloidal splines, and its kernel.
-/

set_option linter.unusedSectionVars false
set_option linter.unusedVariables false

namespace Mrx
open Finset Jax Spec Matrix Quad Props

/-- What the getters compute as the radial difference of a coefficient sequence. -/
def codeRad (N M : Nat) (f : Nat → ℝ) (i : Nat) : ℝ :=
  f (i + 1) - (if i + 1 ≠ M then f i else 0) - (if i + 2 = N ∧ N ≠ M then f (N - 1) else 0)

theorem dR_codeRad (d : Dims) (hr : 2 ≤ d.nr) (hdr : d.dr = d.nr - 1) (C : Nat → Nat → Nat → ℝ) (i j l : Nat) (hi : i < d.dr) :
    dR d C i j l = codeRad d.nr d.nt (fun i => C i j l) i := by
  unfold dR codeRad
  have e : ∀ m ∈ range d.nr, δr d i m * C m j l = (if m = i + 1 then C m j l else 0) - (if m = i then (if i + 1 ≠ d.nt then C i j l else 0) else 0)
      - (if m = d.nr - 1 then (if i + 2 = d.nr ∧ d.nr ≠ d.nt then C (d.nr - 1) j l else 0) else 0) := by
    intro m hm
    rw [mem_range] at hm
    unfold δr
    rw [hdr]
    have a : (0 < m ∧ i = min (m - 1) (d.nr - 1 - 1)) ↔ m = i + 1 := by omega
    simp only [a, sub_mul, ite_mul, one_mul, zero_mul]
    rw [sub_sub]
    congr 1
    by_cases h1 : m = i
    · subst h1
      have : ¬ m = d.nr - 1 := by omega
      rw [if_pos rfl, if_neg this, add_zero]
      exact if_congr (by omega) rfl rfl
    · rw [if_neg h1, zero_add]
      by_cases h2 : m = d.nr - 1
      · rw [if_pos h2, h2]
        exact if_congr (by omega) rfl rfl
      · rw [if_neg h2, if_neg (by omega)]
  rw [sum_congr rfl e, sum_sub_distrib, sum_sub_distrib, sum_ite_eq', sum_ite_eq', sum_ite_eq', if_pos (mem_range.mpr (by omega)),
    if_pos (mem_range.mpr (by omega)), if_pos (mem_range.mpr (by omega))]

/-- Kernel of the radial difference for all sizes. -/
theorem codeRad_zero_iff {N M : Nat} (hN : 2 ≤ N) (hM : 1 ≤ M) (f : Nat → ℝ) :
    (∀ i < N - 1, codeRad N M f i = 0) ↔
      (N = M → ∀ i < N, f i = f 0) ∧ (N < M → ∀ i < N - 1, f i = 0) ∧
      (M < N → (∀ i < M, f i = f 0) ∧ ∀ i, M ≤ i → i < N - 1 → f i = 0) := by
  constructor
  · intro h
    refine ⟨fun e => ?_, fun e => ?_, fun e => ⟨?_, ?_⟩⟩
    · intro i
      induction i with
      | zero => intro _; rfl
      | succ i ih =>
        intro hi
        have := h i (by omega)
        unfold codeRad at this
        rw [if_pos (by omega), if_neg (by omega)] at this
        rw [← ih (by omega)]; linarith
    · have key : ∀ k, k < N - 1 → f (N - 2 - k) = 0 := by
        intro k
        induction k with
        | zero =>
          intro _
          have := h (N - 2) (by omega)
          unfold codeRad at this
          rw [if_pos (by omega), if_pos (by omega), show N - 2 + 1 = N - 1 by omega] at this
          rw [Nat.sub_zero]; linarith
        | succ k ih =>
          intro hk
          have := h (N - 2 - (k + 1)) (by omega)
          unfold codeRad at this
          rw [if_pos (by omega), if_neg (by omega), show N - 2 - (k + 1) + 1 = N - 2 - k by omega, ih (by omega)] at this
          linarith
      intro i hi
      have := key (N - 2 - i) (by omega)
      rwa [show N - 2 - (N - 2 - i) = i by omega] at this
    · intro i
      induction i with
      | zero => intro _; rfl
      | succ i ih =>
        intro hi
        have := h i (by omega)
        unfold codeRad at this
        rw [if_pos (by omega), if_neg (by omega)] at this
        rw [← ih (by omega)]; linarith
    · intro i hMi
      induction i, hMi using Nat.le_induction with
      | base =>
        intro hi
        have := h (M - 1) (by omega)
        unfold codeRad at this
        rw [if_neg (by omega), if_neg (by omega), show M - 1 + 1 = M by omega] at this
        linarith
      | succ i hMi ih =>
        intro hi
        have := h i (by omega)
        unfold codeRad at this
        rw [if_pos (by omega), if_neg (by omega), ih (by omega)] at this
        linarith
  · rintro ⟨h1, h2, h3⟩ i hi
    unfold codeRad
    rcases Nat.lt_trichotomy N M with e | e | e
    · rw [if_pos (by omega), h2 e i hi]
      by_cases hl : i + 2 = N
      · rw [if_pos (by omega), show i + 1 = N - 1 by omega]; ring
      · rw [if_neg (by omega), h2 e (i + 1) (by omega)]; ring
    · rw [if_pos (by omega), if_neg (by omega), h1 e i (by omega), h1 e (i + 1) (by omega)]; ring
    · obtain ⟨a, b⟩ := h3 e
      by_cases c1 : i + 1 = M
      · rw [if_neg (by omega)]
        by_cases hl : i + 2 = N
        · rw [if_pos (by omega), show i + 1 = N - 1 by omega]; ring
        · rw [if_neg (by omega), b (i + 1) (by omega) (by omega)]; ring
      · rw [if_pos (by omega)]
        by_cases hl : i + 2 = N
        · rw [if_pos (by omega), b i (by omega) (by omega), show i + 1 = N - 1 by omega]; ring
        · rw [if_neg (by omega)]
          rcases Nat.lt_or_ge (i + 1) M with c2 | c2
          · rw [a _ c2, a i (by omega)]; ring
          · rw [b (i + 1) c2 (by omega), b i (by omega) (by omega)]; ring

/-- What the getters compute as the axial difference: the wrap-around goes to row `min (M - 1) (L - 1)`. -/
theorem dZ_code (d : Dims) (hdz : d.dz = d.nz) (hM : 1 ≤ d.nt) (C : Nat → Nat → Nat → ℝ) (i j l : Nat) (hl : l < d.nz) :
    dZ d C i j l = (if l + 1 < d.nz then C i j (l + 1) else 0) + (if l = min (d.nt - 1) (d.nz - 1) then C i j 0 else 0) - C i j l := by
  unfold dZ
  have e : ∀ m ∈ range d.nz, δz d l m * C i j m = (if m = l + 1 then C i j m else 0)
      + (if m = 0 then (if l = min (d.nt - 1) (d.nz - 1) then C i j 0 else 0) else 0) - (if m = l then C i j m else 0) := by
    intro m hm
    rw [mem_range] at hm
    unfold δz
    rw [hdz, sub_mul, ite_mul, ite_mul, one_mul, zero_mul]
    congr 1
    · by_cases h0 : m = 0
      · subst h0
        rw [if_neg (by omega : ¬ (0 = l + 1)), zero_add, if_pos rfl]; simp
      · rw [if_neg h0, add_zero, if_pos (by omega : 0 < m)]
        exact if_congr (by omega) rfl rfl
    · exact if_congr (by omega) rfl rfl
  rw [sum_congr rfl e, sum_sub_distrib, sum_add_distrib, sum_ite_eq', sum_ite_eq', sum_ite_eq', if_pos (mem_range.mpr (by omega : 0 < d.nz)),
    if_pos (mem_range.mpr hl)]
  congr 2
  exact if_congr mem_range rfl rfl

/-- Kernel of the axial difference for all sizes: constants, cut off at the number of poloidal splines. -/
theorem dZ_zero_iff (d : Dims) (hdz : d.dz = d.nz) (hM : 1 ≤ d.nt) (C : Nat → Nat → Nat → ℝ) (i j : Nat) :
    (∀ l < d.nz, dZ d C i j l = 0) ↔ ∀ l < d.nz, C i j l = if l < d.nt then C i j 0 else 0 := by
  constructor
  · intro h
    have up : ∀ k, k < d.nz - d.nt → C i j (d.nz - 1 - k) = 0 := by
      intro k
      induction k with
      | zero =>
        intro hk
        have := h (d.nz - 1) (by omega)
        rw [dZ_code d hdz hM C i j _ (by omega), if_neg (by omega), if_neg (by omega)] at this
        rw [Nat.sub_zero]; linarith
      | succ k ih =>
        intro hk
        have := h (d.nz - 1 - (k + 1)) (by omega)
        rw [dZ_code d hdz hM C i j _ (by omega), if_pos (by omega), if_neg (by omega), show d.nz - 1 - (k + 1) + 1 = d.nz - 1 - k by omega,
          ih (by omega)] at this
        linarith
    have lo : ∀ l, l < d.nz → l < d.nt → C i j l = C i j 0 := by
      intro l
      induction l with
      | zero => intro _ _; rfl
      | succ l ih =>
        intro h1 h2
        have := h l (by omega)
        rw [dZ_code d hdz hM C i j _ (by omega), if_pos (by omega), if_neg (by omega)] at this
        rw [← ih (by omega) (by omega)]; linarith
    intro l hl
    split_ifs with hlt
    · exact lo l hl hlt
    · have := up (d.nz - 1 - l) (by omega)
      rwa [show d.nz - 1 - (d.nz - 1 - l) = l by omega] at this
  · intro h l hl
    rw [dZ_code d hdz hM C i j _ hl, h l hl]
    by_cases h1 : l + 1 < d.nz
    · rw [if_pos h1, h (l + 1) h1]
      split_ifs <;> first | (exfalso; omega) | ring
    · rw [if_neg h1]
      split_ifs <;> first | (exfalso; omega) | ring

/-- The values of an axial difference add up to zero, for all sizes. -/
theorem sum_dZ (d : Dims) (hdz : d.dz = d.nz) (hM : 1 ≤ d.nt) (hL : 1 ≤ d.nz) (C : Nat → Nat → Nat → ℝ) (i j : Nat) :
    ∑ l ∈ range d.nz, dZ d C i j l = 0 := by
  rw [sum_congr rfl fun l hl => dZ_code d hdz hM C i j l (mem_range.mp hl), sum_sub_distrib, sum_add_distrib, sum_ite_eq',
    if_pos (mem_range.mpr (by omega))]
  obtain ⟨n, hn⟩ : ∃ n, d.nz = n + 1 := ⟨d.nz - 1, by omega⟩
  rw [hn, sum_range_succ, if_neg (by omega), sum_range_succ' (fun l => C i j l),
    sum_congr rfl fun l hl => if_pos (by have := mem_range.mp hl; omega : l + 1 < n + 1)]
  ring

/-- The discrete complex in terms of arrays, for all sizes. -/
structure Cw (D : DeRham) (polar dir : Bool) (N M L : Nat) : Prop where
  core : D.ComplexCore
  d0 : D.S.L0.dims = dk N M L 0
  d1 : D.S.L1.dims = dk N M L 1
  d2 : D.S.L2.dims = dk N M L 2
  d3 : D.S.L3.dims = dk N M L 3
  hN : 2 ≤ N
  hM : 1 ≤ M
  hL : 1 ≤ L
  hp : polar = true → 3 ≤ N ∧ 3 ≤ M
  conf0 : ∀ u, Conf polar dir N M L 0 (coef D.S.L0.dims (D.E0ᵀ *ᵥ u))
  conf1 : ∀ u, Conf polar dir N M L 1 (coef D.S.L1.dims (D.E1ᵀ *ᵥ u))
  conf2 : ∀ u, Conf polar dir N M L 2 (coef D.S.L2.dims (D.E2ᵀ *ᵥ u))
  conf3 : ∀ u, Conf polar dir N M L 3 (coef D.S.L3.dims (D.E3ᵀ *ᵥ u))
  mk0 : ∀ V, Conf polar dir N M L 0 V → ∃ u, ∀ c i j l, (dk N M L 0).InRange c i j l → coef D.S.L0.dims (D.E0ᵀ *ᵥ u) c i j l = V c i j l
  mk1 : ∀ V, Conf polar dir N M L 1 V → ∃ u, ∀ c i j l, (dk N M L 1).InRange c i j l → coef D.S.L1.dims (D.E1ᵀ *ᵥ u) c i j l = V c i j l
  mk2 : ∀ V, Conf polar dir N M L 2 V → ∃ u, ∀ c i j l, (dk N M L 2).InRange c i j l → coef D.S.L2.dims (D.E2ᵀ *ᵥ u) c i j l = V c i j l
  mk3 : ∀ V, Conf polar dir N M L 3 V → ∃ u, ∀ c i j l, (dk N M L 3).InRange c i j l → coef D.S.L3.dims (D.E3ᵀ *ᵥ u) c i j l = V c i j l
  euler : D.m0 + D.m2 = D.m1 + D.m3

theorem Admissible.cw {ns ps : Nat × Nat × Nat} {q : Nat} {types : String × String × String} {F : V3 → V3} {polar dirichlet : Bool}
    {D : DeRham} (h : Admissible ns ps q types F polar dirichlet D) (hr : types.1 = "clamped") (ht : types.2.1 ≠ "clamped")
    (hz : types.2.2 ≠ "clamped") : Cw D polar dirichlet ns.1 ns.2.1 ns.2.2 := by
  have hex := h.complex
  have hd := h.dims0
  have hps := h.polarSettings
  have hpol := h.polar
  have hw := h.quad.wf
  have e1 := (Seq.nr_eq hw).1
  have e2 := (Seq.nr_eq hw).2.1
  have e3 := (Seq.nr_eq hw).2.2
  have d0 : D.S.L0.dims = dk ns.1 ns.2.1 ns.2.2 0 := by
    rw [hd]; simp [dk, Form.dsize, hr, ht, hz]
  have d1 : D.S.L1.dims = dk ns.1 ns.2.1 ns.2.2 1 := by rw [e1, d0]; rfl
  have d2 : D.S.L2.dims = dk ns.1 ns.2.1 ns.2.2 2 := by rw [e2, d0]; rfl
  have d3 : D.S.L3.dims = dk ns.1 ns.2.1 ns.2.2 3 := by rw [e3, d0]; rfl
  have hN : 2 ≤ ns.1 := by
    have := h.r
    unfold DirOK at this
    rw [hr] at this
    simp at this
    omega
  have hM : 1 ≤ ns.2.1 := by
    have := h.t
    unfold DirOK at this
    omega
  have hL : 1 ≤ ns.2.2 := by
    have := h.z
    unfold DirOK at this
    omega
  have hp3 : polar = true → 3 ≤ ns.1 ∧ 3 ≤ ns.2.1 := fun e => (hpol e).2.2.2
  obtain ⟨S, hS, ⟨hp, rfl⟩ | ⟨hp, rfl⟩⟩ := Admissible.cases' h.built
  · obtain ⟨p0, p1, p2, p3⟩ := hps hp
    have c0 := polar_conf p0 (by simp) d0 dirichlet
    have c1 := polar_conf p1 (by simp) d1 dirichlet
    have c2 := polar_conf p2 (by simp) d2 dirichlet
    have c3 := polar_conf p3 (by simp) d3 dirichlet
    rw [← hp] at c0 c1 c2 c3
    refine ⟨hex, d0, d1, d2, d3, hN, hM, hL, hp3, c0.1, c1.1, c2.1, c3.1, c0.2, c1.2, c2.2, c3.2, ?_⟩
    simp only [DeRham.ofPolar] at d0 d1 d2 d3
    simp only [DeRham.ofPolar, PolarOp.n, PolarOp.n1, PolarOp.n2, PolarOp.n3, PolarOp.discSize, PolarOp.ringSize, PolarOp.o, d0, d1, d2, d3, dk]
    norm_num
    obtain ⟨a, ha⟩ : ∃ a, ns.1 - 1 - 1 = a := ⟨_, rfl⟩
    obtain ⟨b, hb⟩ : ∃ b, ns.1 - 2 - (if dirichlet = true then 1 else 0) = b := ⟨_, rfl⟩
    rw [ha, hb]; ring
  · have c0 := boundary_conf S.L0.dims (by simp) d0 dirichlet
    have c1 := boundary_conf S.L1.dims (by simp) d1 dirichlet
    have c2 := boundary_conf S.L2.dims (by simp) d2 dirichlet
    have c3 := boundary_conf S.L3.dims (by simp) d3 dirichlet
    rw [← hp] at c0 c1 c2 c3
    refine ⟨hex, d0, d1, d2, d3, hN, hM, hL, hp3, c0.1, c1.1, c2.1, c3.1, c0.2, c1.2, c2.2, c3.2, ?_⟩
    simp only [DeRham.ofBoundary] at d0 d1 d2 d3
    simp only [DeRham.ofBoundary, BoundaryOp.rowDims, d0, d1, d2, d3, dk, Dims.n, Dims.n1, Dims.n2, Dims.n3]
    norm_num
    have g2 : getDim ns.2.1 (DeRham.bcTypes dirichlet).2.1 = ns.2.1 := by cases dirichlet <;> rfl
    have g3 : getDim ns.2.2 (DeRham.bcTypes dirichlet).2.2 = ns.2.2 := by cases dirichlet <;> rfl
    rw [g2, g3]; ring

end Mrx
