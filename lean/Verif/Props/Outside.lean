import Verif.Props.Reproduce
import Verif.Props.Gvec
import Verif.Model.GvecScripts

/-!
# C116: splines outside the unit interval, and the fit of the tokamak map
-/

set_option linter.unusedSectionVars false

namespace Mrx.Props
open Finset Jax Spec Matrix GvecScripts

section Outside
variable {K : Type} [Field K] [LinearOrder K] [IsStrictOrderedRing K]

theorem outside_N_pos {τ : Nat → K} (hτ : StrictMono τ) : ∀ (p i : Nat) (x : K), τ i < x → x < τ (i + p + 1) → 0 < N τ p i x := by
  intro p
  induction p with
  | zero => intro i x h1 h2; simp only [N]; rw [if_pos ⟨h1.le, h2⟩]; exact zero_lt_one
  | succ p ih =>
    intro i x h1 h2
    simp only [N]
    have a0 : 0 ≤ N τ p i x := N_nonneg hτ.monotone _ _ _
    have a1 : 0 ≤ N τ p (i + 1) x := N_nonneg hτ.monotone _ _ _
    have d0 : 0 < τ (i + p + 1) - τ i := sub_pos.mpr (hτ (by omega))
    have d1 : 0 < τ (i + p + 2) - τ (i + 1) := sub_pos.mpr (hτ (by omega))
    have c0 : 0 < (x - τ i) / (τ (i + p + 1) - τ i) := div_pos (sub_pos.mpr h1) d0
    have h2' : x < τ (i + p + 2) := h2
    have c1 : 0 < (τ (i + p + 2) - x) / (τ (i + p + 2) - τ (i + 1)) := div_pos (sub_pos.mpr h2') d1
    rcases lt_or_ge x (τ (i + p + 1)) with hx | hx
    · exact add_pos_of_pos_of_nonneg (mul_pos c0 (ih i x h1 hx)) (mul_nonneg c1.le a1)
    · rcases Nat.eq_zero_or_pos p with rfl | hp
      · refine add_pos_of_nonneg_of_pos (mul_nonneg c0.le a0) (mul_pos c1 ?_)
        simp only [N]
        rw [if_pos ⟨hx, h2'⟩]; exact zero_lt_one
      · refine add_pos_of_nonneg_of_pos (mul_nonneg c0.le a0) (mul_pos c1 (ih (i + 1) x ((hτ (by omega)).trans_le hx) ?_))
        rwa [show i + 1 + p + 1 = i + p + 2 by omega]

/-- The recursion for the sum of the first `m` splines. -/
theorem outside_step {τ : Nat → K} (hτ : StrictMono τ) (p m : Nat) (x : K) :
    ∑ i ∈ range m, N τ (p + 1) i x = (x - τ 0) / (τ (p + 1) - τ 0) * N τ p 0 x - (x - τ m) / (τ (m + p + 1) - τ m) * N τ p m x
      + ∑ i ∈ range m, N τ p (i + 1) x := by
  have key : ∀ i, N τ (p + 1) i x = (x - τ i) / (τ (i + p + 1) - τ i) * N τ p i x - (x - τ (i + 1)) / (τ (i + 1 + p + 1) - τ (i + 1)) * N τ p (i + 1) x + N τ p (i + 1) x := by
    intro i
    simp only [N]
    rw [show i + 1 + p + 1 = i + p + 2 by omega]
    have : τ (i + p + 2) - τ (i + 1) ≠ 0 := (sub_pos.mpr (hτ (by omega))).ne'
    field_simp
    ring
  rw [sum_congr rfl fun i _ => key i, sum_add_distrib, sum_range_sub' (fun i => (x - τ i) / (τ (i + p + 1) - τ i) * N τ p i x)]
  simp

theorem outside_weight_le {τ : Nat → K} (hτ : StrictMono τ) (p i : Nat) (x : K) :
    0 ≤ (x - τ i) / (τ (i + p + 1) - τ i) * N τ p i x ∧ (x - τ i) / (τ (i + p + 1) - τ i) * N τ p i x ≤ N τ p i x := by
  by_cases h : N τ p i x = 0
  · rw [h]; simp
  · obtain ⟨a, b⟩ := N_support hτ.monotone h
    have d : 0 < τ (i + p + 1) - τ i := sub_pos.mpr (hτ (by omega))
    have n0 := N_nonneg hτ.monotone p i x
    refine ⟨mul_nonneg (div_nonneg (by linarith) d.le) n0, mul_le_of_le_one_left n0 ?_⟩
    rw [div_le_one d]; linarith

theorem outside_le_one {τ : Nat → K} (hτ : StrictMono τ) (p : Nat) : ∀ (m : Nat) (x : K), ∑ i ∈ range m, N τ p i x ≤ 1 := by
  induction p with
  | zero =>
    intro m x
    have key : ∀ i, N τ 0 i x = (if τ i ≤ x then (1 : K) else 0) - (if τ (i + 1) ≤ x then 1 else 0) := by
      intro i
      simp only [N]
      have := (hτ (Nat.lt_succ_self i)).le
      simp only [Nat.succ_eq_add_one] at this
      by_cases a : τ i ≤ x <;> by_cases b : τ (i + 1) ≤ x
      · simp [a, b]
      · simp [a, b, not_le.mp b]
      · exact absurd (this.trans b) a
      · simp [a, b]
    rw [sum_congr rfl fun i _ => key i, sum_range_sub']
    split <;> split <;> simp
  | succ p ih =>
    intro m x
    rw [outside_step hτ]
    have a := (outside_weight_le hτ p 0 x).2
    have b := (outside_weight_le hτ p m x).1
    have c := ih (m + 1) x
    rw [sum_range_succ'] at c
    rw [show 0 + p + 1 = p + 1 by omega] at a
    linarith

theorem outside_left {τ : Nat → K} (hτ : StrictMono τ) (p m : Nat) (x : K) (h : x < τ (p + 1)) : ∑ i ∈ range m, N τ (p + 1) i x < 1 := by
  rcases le_or_gt x (τ 0) with h0 | h0
  · rw [sum_eq_zero fun i _ => N_left_zero hτ.monotone (h0.trans (hτ.monotone (Nat.zero_le i))) (h0.trans_lt (hτ (show 0 < i + (p + 1) by omega)))]
    exact zero_lt_one
  · rw [outside_step hτ]
    have b := (outside_weight_le hτ p m x).1
    have c := outside_le_one hτ p (m + 1) x
    rw [sum_range_succ'] at c
    have d : 0 < τ (p + 1) - τ 0 := sub_pos.mpr (hτ (by omega))
    have n0 := outside_N_pos hτ p 0 x h0 (by rwa [show 0 + p + 1 = p + 1 by omega])
    have : (x - τ 0) / (τ (p + 1) - τ 0) * N τ p 0 x < N τ p 0 x := mul_lt_of_lt_one_left n0 (by rw [div_lt_one d]; linarith)
    linarith

theorem outside_right {τ : Nat → K} (hτ : StrictMono τ) (p m : Nat) (x : K) (h : τ m < x) : ∑ i ∈ range m, N τ (p + 1) i x < 1 := by
  rcases le_or_gt (τ (m + p + 1)) x with h0 | h0
  · rw [sum_eq_zero fun i hi => N_eq_zero_of_ge hτ.monotone (i := i) (p := p + 1) (x := x) ((hτ.monotone (show i + (p + 1) + 1 ≤ m + p + 1 by
      have := mem_range.mp hi; omega)).trans h0)]
    exact zero_lt_one
  · rw [outside_step hτ]
    have a := (outside_weight_le hτ p 0 x).2
    rw [show 0 + p + 1 = p + 1 by omega] at a
    have c := outside_le_one hτ p (m + 1) x
    rw [sum_range_succ'] at c
    have d : 0 < τ (m + p + 1) - τ m := sub_pos.mpr (hτ (by omega))
    have n0 := outside_N_pos hτ p m x h h0
    have : 0 < (x - τ m) / (τ (m + p + 1) - τ m) * N τ p m x := mul_pos (div_pos (by linarith) d) n0
    linarith

/-- **C116** A periodic basis is evaluated without reducing the argument modulo 1: the functions add up to 1 exactly on `[0, 1]`. Elsewhere the sum is smaller. -/
theorem C116_periodic_sum_iff (n p : Nat) (hp : 1 ≤ p) (hn : 1 ≤ n) (h : p < n ∨ p = 1) (hfine : n ≤ 49975) (s : SplineBasis K)
    (hs : SplineBasis.mk? n p "periodic" = .ok s) (x : K) :
    (∑ i ∈ range n, s.evaluate x (i : Int) = 1 ↔ 0 ≤ x ∧ x ≤ 1) ∧ ∑ i ∈ range n, s.evaluate x (i : Int) ≤ 1 := by
  have inside := C02_periodic_partition_of_unity n p hp hn h hfine s hs x
  have hpn : p ≤ n := by omega
  have hm := strictMono_periodicKnot (K := K) n p hn
  have e : ∑ i ∈ range n, s.evaluate x (i : Int) = ∑ i ∈ range (n + p), N (periodicKnot K n p) p i x := by
    rw [of_mk?_periodic h hs, sum_congr rfl fun i hi => eval_periodic n p hpn hn hfine x i (mem_range.mp hi),
      sum_wrap n p hpn fun i => N (periodicKnot K n p) p i x]
  have e1 : periodicKnot K n p (n + p) = 1 := by rw [periodicKnot_add n p p hn, periodicKnot_p]; simp
  have e0 : periodicKnot K n p p = 0 := periodicKnot_p n p
  refine ⟨⟨fun hx => ?_, fun hx => inside hx.1 hx.2⟩, by rw [e]; exact outside_le_one hm p _ x⟩
  rw [e] at hx
  obtain ⟨r, rfl⟩ : ∃ r, p = r + 1 := ⟨p - 1, by omega⟩
  constructor
  · by_contra hc
    have := outside_left hm r (n + (r + 1)) x (by rw [e0]; exact not_le.mp hc)
    exact absurd hx this.ne
  · by_contra hc
    have := outside_right hm r (n + (r + 1)) x (by rw [e1]; exact not_le.mp hc)
    exact absurd hx this.ne

/-- Case: cubic, 8 splines, at -1/100 and 1/3. -/
example := C116_periodic_sum_iff (K := ℚ) 8 3 (by norm_num) (by norm_num) (by norm_num) (by norm_num) _ (mk?_periodic 8 3 (by norm_num)) (-1 / 100)

/-- **C116** More than `p/n` away from `[0, 1]` all functions of a periodic basis vanish: it is not the periodic continuation. -/
theorem C116_periodic_far (n p : Nat) (hn : 1 ≤ n) (h : p < n ∨ p = 1) (hfine : n ≤ 49975) (s : SplineBasis K)
    (hs : SplineBasis.mk? n p "periodic" = .ok s) (x : K) (hx : x < -(p / n : K) ∨ 1 + (p / n : K) ≤ x) (i : Nat) (hi : i < n) : s.evaluate x (i : Int) = 0 := by
  have hpn : p ≤ n := by omega
  have hm := (strictMono_periodicKnot (K := K) n p hn).monotone
  have hn' : (0 : K) < n := by exact_mod_cast hn
  have z : ∀ j, j < n + p → N (periodicKnot K n p) p j x = 0 := by
    intro j hj
    rcases hx with hx | hx
    · refine N_eq_zero_of_lt hm (lt_of_lt_of_le hx ?_)
      unfold periodicKnot
      rw [neg_le_iff_add_nonneg, ← add_div]
      apply div_nonneg _ hn'.le
      linarith [show (0 : K) ≤ j from Nat.cast_nonneg j]
    · refine N_eq_zero_of_ge hm (le_trans ?_ hx)
      unfold periodicKnot
      rw [div_le_iff₀ hn', add_mul, div_mul_cancel₀ _ hn'.ne', one_mul]
      have : ((j + p + 1 : Nat) : K) ≤ ((n + p + p : Nat) : K) := by exact_mod_cast (show j + p + 1 ≤ n + p + p by omega)
      push_cast at this ⊢
      linarith
  rw [of_mk?_periodic h hs, eval_periodic n p hpn hn hfine x i hi]
  split
  · rw [z i (by omega), z (n + i) (by omega), add_zero]
  · exact z i (by omega)

/-- Case: cubic, 8 splines, at -1. -/
example := C116_periodic_far (K := ℚ) 8 3 (by norm_num) (by norm_num) (by norm_num) _ (mk?_periodic 8 3 (by norm_num)) (-1) (by norm_num) 2 (by norm_num)

end Outside

/-! ## Discrete functions and the fit -/

section Fit
variable {ns ps : Nat × Nat × Nat} {q : Nat} {types : String × String × String} {F : V3 → V3} {D : DeRham}

theorem outside_E0_const (h : Admissible ns ps q types F false false D) (k : ℝ) (x : ℝ × ℝ × ℝ) :
    D.phys0 (fun _ => k) (toV3 x) 0 = k * ((∑ i ∈ range ns.1, D.S.L0.Λ0.evaluate x.1 i) * (∑ j ∈ range ns.2.1, D.S.L0.Λ1.evaluate x.2.1 j)
      * ∑ l ∈ range ns.2.2, D.S.L0.Λ2.evaluate x.2.2 l) := by
  obtain ⟨m0, _, _, _, hQ⟩ := Seq.mk?_inv (Admissible.seq h.built)
  obtain ⟨hk, hd, s0, s1, s2, _⟩ := Form.mk?_inv m0
  have hk0 : D.S.L0.dims.k = 0 := by rw [hd]
  have hkv : Dims.validDegree D.S.L0.dims.k := by rw [hk0]; exact hk
  have hc : D.S.L0.dims.cshape 0 = (ns.1, ns.2.1, ns.2.2) := by
    simp only [Dims.cshape, Dims.shape, hk0, if_true]
    rw [hd]; rfl
  have e : D.m0 = D.S.L0.dims.n := (m0_iff h).1.mpr ⟨rfl, rfl⟩
  have hv : ∀ c : Fin D.S.L0.dims.n, (D.E0ᵀ *ᵥ fun _ => k) c = k := by
    intro c
    unfold mulVec dotProduct
    rw [sum_eq_single (Fin.cast e.symm c)]
    · show D.E0 (Fin.cast e.symm c) c * k = k
      rw [(free_E0 h _ _).2]; simp
    · intro b _ hb
      show D.E0 b c * k = 0
      rw [(free_E0 h _ _).2, if_neg (show ¬ b.1 = c.1 from fun e' => hb (Fin.ext e')), zero_mul]
    · simp
  rw [zeroform_value' h]
  have : ∀ i ∈ range ns.1, ∀ j ∈ range ns.2.1, ∀ l ∈ range ns.2.2, coef D.S.L0.dims (D.E0ᵀ *ᵥ fun _ => k) 0 i j l = k := by
    intro i hi j hj l hl
    have hin : D.S.L0.dims.InRange 0 i j l := by
      unfold Dims.InRange
      rw [hc]
      exact ⟨mem_range.mp hi, mem_range.mp hj, mem_range.mp hl⟩
    unfold coef
    rw [dif_pos (Dims.ravelIndex_lt _ hkv hin), hv]
  rw [sum_congr rfl fun i hi => sum_congr rfl fun j hj => sum_congr rfl fun l hl => by rw [this i hi j hj l hl]]
  simp only [← mul_sum, ← sum_mul]

/-- **C116** A discrete function with equal coefficients is constant at a point exactly if the poloidal coordinate is in `[0, 1]`: it is not continued periodically. -/
theorem C116_constant_iff (h : Admissible ns ps q types F false false D) (tr : types.1 = "clamped") (tt : types.2.1 = "periodic") (k : ℝ) (hk : k ≠ 0) (x : ℝ × ℝ × ℝ)
    (hr : 0 ≤ x.1 ∧ x.1 ≤ 1) (hz : 0 ≤ x.2.2 ∧ x.2.2 ≤ 1) : D.phys0 (fun _ => k) (toV3 x) 0 = k ↔ 0 ≤ x.2.1 ∧ x.2.1 ≤ 1 := by
  obtain ⟨m0, _, _, _, hQ⟩ := Seq.mk?_inv (Admissible.seq h.built)
  obtain ⟨hk', hd, s0, s1, s2, _⟩ := Form.mk?_inv m0
  have u := fun n p ty (hd : DirOK n p q ty) => (show AngularUnity n p ty from by
    rcases hd with ⟨e, _, b, c, _⟩ | ⟨e, a, b, c, d, _⟩ | ⟨e, a, _⟩
    · exact Or.inr (Or.inr ⟨e, b, c⟩)
    · exact Or.inl ⟨e, a, b, c, d⟩
    · exact Or.inr (Or.inl ⟨e, a⟩))
  have ht : 1 ≤ ps.2.1 ∧ (ps.2.1 < ns.2.1 ∨ ps.2.1 = 1) ∧ 1 ≤ ns.2.1 ∧ ns.2.1 ≤ 49975 := by
    rcases h.t with ⟨e, _⟩ | ⟨_, a, b, c, d, _⟩ | ⟨e, _⟩
    · rw [tt] at e; exact absurd e (by decide)
    · exact ⟨a, b, c, d⟩
    · rw [tt] at e; exact absurd e (by decide)
  rw [outside_E0_const h, (u _ _ _ h.r).sum s0 x.1 hr.1 hr.2, (u _ _ _ h.z).sum s2 x.2.2 hz.1 hz.2, one_mul, mul_one]
  rw [tt] at s1
  rw [← (C116_periodic_sum_iff ns.2.1 ps.2.1 ht.1 ht.2.2.1 ht.2.1 ht.2.2.2 D.S.L0.Λ1 s1 x.2.1).1]
  constructor
  · intro e
    exact mul_left_cancel₀ hk (e.trans (mul_one k).symm)
  · intro e
    rw [e, mul_one]

variable (eq : Tokamak)

/-- The squared distance of a function from data on the points of the tokamak script. -/
noncomputable def tokamakMisfit (f : V3 → ℝ) (X : Nat → Nat → ℝ) : ℝ :=
  ∑ i ∈ range eq.rho.length, ∑ j ∈ range eq.theta.length, (f ![eq.rho.getD i 0, eq.thetastar i j / (2 * Real.pi), 0] - X i j) ^ 2

theorem tokamak_misfit (c : Fin D.S.L0.dims.n → ℝ) (X : Nat → Nat → ℝ) :
    misfit (eq.design D) (fun j => eq.ravel X j) c = tokamakMisfit eq (fun y => ∑ l : Fin D.S.L0.dims.n, D.S.L0.evaluate (DeRham.fromV3 y) l 0 * c l) X := by
  rw [misfit_sum]
  refine (Fin.sum_univ_eq_sum_range (fun n => ((∑ l : Fin D.S.L0.dims.n, D.S.L0.evaluate (DeRham.fromV3 (eq.pts n)) l 0 * c l) - eq.ravel X n) ^ 2) _).trans ?_
  unfold tokamakMisfit
  rw [show eq.size = eq.rho.length * eq.theta.length from rfl, sum_range_mul2]
  refine sum_congr rfl fun i hi => sum_congr rfl fun j hj => ?_
  have hj' := mem_range.mp hj
  have a1 : (i * eq.theta.length + j) / eq.theta.length = i := by
    rw [Nat.mul_comm, Nat.mul_add_div (by omega), Nat.div_eq_of_lt hj', Nat.add_zero]
  have a2 : (i * eq.theta.length + j) % eq.theta.length = j := by
    rw [Nat.mul_comm, Nat.mul_add_mod, Nat.mod_eq_of_lt hj']
  simp only [Tokamak.pts, Tokamak.ravel, a1, a2]

/-- **C116** The fitted functions of the tokamak script are the discrete functions closest to the data at the points `(ρ, θ*/2π, 0)`. -/
theorem C116_fit_best (h : Admissible ns ps q types F false false D) {lstsq : Lstsq} (hl : ∀ m n A b, IsLstsq A b (lstsq m n A b)) (e : D.m0 = D.S.L0.dims.n) (X : Nat → Nat → ℝ)
    (c : Fin D.m0 → ℝ) : tokamakMisfit eq (fun y => D.form0 (fun i => eq.fit lstsq D X (Fin.cast e i)) y 0) X ≤ tokamakMisfit eq (fun y => D.form0 c y 0) X := by
  have m := (hl _ _ (eq.design D) fun j => eq.ravel X j).min fun l => c (Fin.cast e.symm l)
  rw [tokamak_misfit, tokamak_misfit] at m
  have a1 : (fun y => D.form0 (fun i => eq.fit lstsq D X (Fin.cast e i)) y 0) = fun y =>
      ∑ l : Fin D.S.L0.dims.n, D.S.L0.evaluate (DeRham.fromV3 y) l 0 * eq.fit lstsq D X l := funext fun y => free_form0 h e _ y
  have a2 : (fun y => D.form0 c y 0) = fun y =>
      ∑ l : Fin D.S.L0.dims.n, D.S.L0.evaluate (DeRham.fromV3 y) l 0 * c (Fin.cast e.symm l) := funext fun y => free_form0 h e (fun l => c (Fin.cast e.symm l)) y
  rw [a1, a2]
  exact m

theorem tokamakMisfit_zero (f : V3 → ℝ) (X : Nat → Nat → ℝ) : tokamakMisfit eq f X = 0 ↔
    ∀ i < eq.rho.length, ∀ j < eq.theta.length, f ![eq.rho.getD i 0, eq.thetastar i j / (2 * Real.pi), 0] = X i j := by
  unfold tokamakMisfit
  rw [sum_eq_zero_iff_of_nonneg fun i _ => sum_nonneg fun j _ => sq_nonneg _]
  refine ⟨fun hz i hi j hj => ?_, fun hz i hi => sum_eq_zero fun j hj => ?_⟩
  · have := (sum_eq_zero_iff_of_nonneg fun j _ => sq_nonneg _).mp (hz i (mem_range.mpr hi)) j (mem_range.mpr hj)
    exact sub_eq_zero.mp (pow_eq_zero_iff (by norm_num) |>.mp this)
  · rw [hz i (mem_range.mp hi) j (mem_range.mp hj), sub_self]; norm_num

/-- **C116** (finding) The angles `θ*/2π` are not reduced modulo 1, unlike those of the figure. Data that are constant are fitted by the constant exactly if all `θ*` of the grid are in `[0, 2π]`. -/
theorem C116_fit_constant_iff (h : Admissible ns ps q types F false false D) (tr : types.1 = "clamped") (tt : types.2.1 = "periodic")
    (hr : ∀ i < eq.rho.length, 0 ≤ eq.rho.getD i 0 ∧ eq.rho.getD i 0 ≤ 1) (k : ℝ) (hk : k ≠ 0) :
    tokamakMisfit eq (fun y => D.form0 (fun _ => k) y 0) (fun _ _ => k) = 0 ↔
      ∀ i < eq.rho.length, ∀ j < eq.theta.length, 0 ≤ eq.thetastar i j ∧ eq.thetastar i j ≤ 2 * Real.pi := by
  rw [tokamakMisfit_zero]
  refine forall₂_congr fun i hi => forall₂_congr fun j hj => ?_
  have e := C116_constant_iff h tr tt k hk (eq.rho.getD i 0, eq.thetastar i j / (2 * Real.pi), 0) (hr i hi) ⟨le_refl _, zero_le_one⟩
  rw [h.phys0_eq] at e
  have hp : 0 < 2 * Real.pi := by positivity
  have a : 0 ≤ eq.thetastar i j / (2 * Real.pi) ↔ 0 ≤ eq.thetastar i j := by
    rw [le_div_iff₀ hp, zero_mul]
  have b : eq.thetastar i j / (2 * Real.pi) ≤ 1 ↔ eq.thetastar i j ≤ 2 * Real.pi := div_le_one hp
  dsimp only at e
  rw [a, b] at e
  exact e

theorem tokamak_far (h : Admissible ns ps q types F false false D) (tt : types.2.1 = "periodic") (c : Fin D.m0 → ℝ) (x : ℝ × ℝ × ℝ)
    (hx : x.2.1 < -(ps.2.1 / ns.2.1 : ℝ) ∨ 1 + (ps.2.1 / ns.2.1 : ℝ) ≤ x.2.1) : D.phys0 c (toV3 x) 0 = 0 := by
  obtain ⟨m0, _, _, _, hQ⟩ := Seq.mk?_inv (Admissible.seq h.built)
  obtain ⟨hk', hd, s0, s1, s2, _⟩ := Form.mk?_inv m0
  have ht : 1 ≤ ps.2.1 ∧ (ps.2.1 < ns.2.1 ∨ ps.2.1 = 1) ∧ 1 ≤ ns.2.1 ∧ ns.2.1 ≤ 49975 := by
    rcases h.t with ⟨e, _⟩ | ⟨_, a, b, c, d, _⟩ | ⟨e, _⟩
    · rw [tt] at e; exact absurd e (by decide)
    · exact ⟨a, b, c, d⟩
    · rw [tt] at e; exact absurd e (by decide)
  rw [tt] at s1
  rw [zeroform_value' h]
  refine sum_eq_zero fun i _ => sum_eq_zero fun j hj => sum_eq_zero fun l _ => ?_
  rw [C116_periodic_far ns.2.1 ps.2.1 ht.2.2.1 ht.2.1 ht.2.2.2 _ s1 x.2.1 hx j (mem_range.mp hj)]
  ring

/-- **C116** (finding) At a grid point whose `θ*` is more than `p/n` of a turn outside `[0, 2π]` every discrete function vanishes: whatever the coefficients, the misfit is at least the square of the
value there. -/
theorem C116_fit_far (h : Admissible ns ps q types F false false D) (tt : types.2.1 = "periodic") (X : Nat → Nat → ℝ) (c : Fin D.m0 → ℝ) {i j : Nat} (hi : i < eq.rho.length)
    (hj : j < eq.theta.length) (hx : eq.thetastar i j / (2 * Real.pi) < -(ps.2.1 / ns.2.1 : ℝ) ∨ 1 + (ps.2.1 / ns.2.1 : ℝ) ≤ eq.thetastar i j / (2 * Real.pi)) :
    X i j ^ 2 ≤ tokamakMisfit eq (fun y => D.form0 c y 0) X := by
  have e := tokamak_far h tt c (eq.rho.getD i 0, eq.thetastar i j / (2 * Real.pi), 0) hx
  rw [h.phys0_eq] at e
  have e' : D.form0 c ![eq.rho.getD i 0, eq.thetastar i j / (2 * Real.pi), 0] 0 = 0 := e
  unfold tokamakMisfit
  refine le_trans ?_ (single_le_sum (f := fun i => ∑ j ∈ range eq.theta.length, (D.form0 c ![eq.rho.getD i 0, eq.thetastar i j / (2 * Real.pi), 0] 0 - X i j) ^ 2)
    (fun i _ => sum_nonneg fun j _ => sq_nonneg _) (mem_range.mpr hi))
  refine le_trans ?_ (single_le_sum (f := fun j => (D.form0 c ![eq.rho.getD i 0, eq.thetastar i j / (2 * Real.pi), 0] 0 - X i j) ^ 2) (fun j _ => sq_nonneg _) (mem_range.mpr hj))
  rw [e', zero_sub, neg_sq]

end Fit

/-! ## A case -/

/-- A grid with two radii and two angles, one of them slightly negative. -/
noncomputable def tokamakCase : Tokamak := ⟨[1 / 2, 1], [0, 3], fun _ j => if j = 0 then -(1 / 10) else 3, fun _ _ => 5, fun _ _ => 1⟩

/-- On this grid constant data are not reproduced by constants. -/
example : tokamakMisfit tokamakCase (fun y => (Case.D false false).form0 (fun _ => 5) y 0) (fun _ _ => 5) ≠ 0 := by
  intro e
  have := (C116_fit_constant_iff tokamakCase (Case.adm false false) rfl rfl (by
    intro i hi
    have hi' : i < 2 := hi
    interval_cases i <;> norm_num [tokamakCase]) 5 (by norm_num)).mp e 0 (by decide) 0 (by decide)
  norm_num [tokamakCase] at this

/-- Case: a point of the seam and one beyond it. -/
example := C116_constant_iff (Case.adm false false) rfl rfl 5 (by norm_num) (1 / 2, 6 / 5, 1 / 4) (by norm_num) (by norm_num)

/-- Case: the best fit on this grid. -/
example (e) (c) := C116_fit_best tokamakCase (Case.adm false false) C81_lstsq_exists.choose_spec e tokamakCase.X1 c

/-- Case: an angle of more than a turn and a half outside. -/
example (c) := C116_fit_far ⟨[1 / 2], [0], fun _ _ => -(4 * Real.pi), fun _ _ => 5, fun _ _ => 1⟩ (Case.adm false false) rfl (fun _ _ => 5) c (i := 0) (j := 0) (by decide) (by decide) (by
  left
  have : -(4 * Real.pi) / (2 * Real.pi) = -2 := by field_simp; norm_num
  rw [this]; norm_num)

end Mrx.Props
