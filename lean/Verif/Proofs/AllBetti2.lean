import Verif.Proofs.AllBetti

/-!
# The discrete complex of the code on arrays, for all sizes

Conformity slice by slice, gradients, curls and divergences by one-dimensional operators.
-/

set_option linter.unusedSectionVars false
set_option linter.unusedVariables false

namespace Mrx
open Finset Jax Spec Matrix Quad Props Module

/-- The axial operator of the getters. -/
def codeAx (M L : Nat) (f : Nat → ℝ) (l : Nat) : ℝ :=
  (if l + 1 < L then f (l + 1) else 0) + (if l = min (M - 1) (L - 1) then f 0 else 0) - f l

/-- The cyclic difference. -/
def cyc (M : Nat) (f : Nat → ℝ) (j : Nat) : ℝ := f ((j + 1) % M) - f j

def cutz (M l : Nat) : ℝ := if l < M then 1 else 0

theorem codeAx_congr {M L : Nat} {f g : Nat → ℝ} {l : Nat} (hl : l < L) (h : ∀ l < L, f l = g l) : codeAx M L f l = codeAx M L g l := by
  unfold codeAx
  rw [h l hl, h 0 (by omega)]
  by_cases c : l + 1 < L
  · rw [if_pos c, if_pos c, h _ c]
  · rw [if_neg c, if_neg c]
theorem codeAx_add (M L : Nat) (f g : Nat → ℝ) (l : Nat) : codeAx M L (fun l => f l + g l) l = codeAx M L f l + codeAx M L g l := by
  unfold codeAx; split_ifs <;> ring_nf
theorem codeAx_sub (M L : Nat) (f g : Nat → ℝ) (l : Nat) : codeAx M L (fun l => f l - g l) l = codeAx M L f l - codeAx M L g l := by
  unfold codeAx; split_ifs <;> ring_nf
theorem codeAx_mul (M L : Nat) (f : Nat → ℝ) (a : ℝ) (l : Nat) : codeAx M L (fun l => f l * a) l = codeAx M L f l * a := by
  unfold codeAx; split_ifs <;> ring_nf
theorem codeAx_smul (M L : Nat) (f : Nat → ℝ) (a : ℝ) (l : Nat) : codeAx M L (fun l => a * f l) l = a * codeAx M L f l := by
  unfold codeAx; split_ifs <;> ring_nf
theorem codeAx_sum (M L : Nat) {ι : Type} (s : Finset ι) (f : ι → Nat → ℝ) (i : Nat) :
    codeAx M L (fun i => ∑ k ∈ s, f k i) i = ∑ k ∈ s, codeAx M L (f k) i := by
  classical
  induction s using Finset.induction_on with
  | empty => simp [codeAx]
  | insert a s ha ih => simp only [sum_insert ha]; rw [codeAx_add, ih]
theorem cyc_congr {M : Nat} {f g : Nat → ℝ} {j : Nat} (hj : j < M) (h : ∀ j < M, f j = g j) : cyc M f j = cyc M g j := by
  unfold cyc; rw [h j hj, h _ (Nat.mod_lt _ (by omega))]
theorem codeRad_sub (N M : Nat) (f g : Nat → ℝ) (i : Nat) : codeRad N M (fun i => f i - g i) i = codeRad N M f i - codeRad N M g i := by
  unfold codeRad; split_ifs <;> ring_nf
theorem codeRad_mul' (N M : Nat) (f : Nat → ℝ) (a : ℝ) (i : Nat) : codeRad N M (fun i => f i * a) i = codeRad N M f i * a := by
  unfold codeRad; split_ifs <;> ring_nf
theorem codeRad_zero' (N M : Nat) (i : Nat) : codeRad N M (fun _ => 0) i = 0 := by
  unfold codeRad; split_ifs <;> ring_nf
theorem codeAx_zero' (N M : Nat) (i : Nat) : codeAx N M (fun _ => 0) i = 0 := by
  unfold codeAx; split_ifs <;> ring_nf

/-- Sums of axial differences vanish. -/
theorem sum_codeAx {M L : Nat} (hM : 1 ≤ M) (hL : 1 ≤ L) (f : Nat → ℝ) : ∑ l ∈ range L, codeAx M L f l = 0 := by
  have := sum_dZ ⟨0, 1, M, L, 0, M, L⟩ rfl hM hL (fun _ _ l => f l) 0 0
  rw [sum_congr rfl fun l hl => dZ_code ⟨0, 1, M, L, 0, M, L⟩ rfl hM (fun _ _ l => f l) 0 0 l (mem_range.mp hl)] at this
  exact this

/-- Kernel of the axial operator. -/
theorem codeAx_zero_iff {M L : Nat} (hM : 1 ≤ M) (f : Nat → ℝ) : (∀ l < L, codeAx M L f l = 0) ↔ ∀ l < L, f l = f 0 * cutz M l := by
  have := dZ_zero_iff ⟨0, 1, M, L, 0, M, L⟩ rfl hM (fun _ _ l => f l) 0 0
  have e : ∀ l < L, dZ ⟨0, 1, M, L, 0, M, L⟩ (fun _ _ l => f l) 0 0 l = codeAx M L f l := fun l hl => dZ_code _ rfl hM _ 0 0 l hl
  constructor
  · intro h l hl
    rw [this.mp (fun l hl => by rw [e l hl]; exact h l hl) l hl]
    unfold cutz
    split_ifs <;> simp
  · intro h l hl
    rw [← e l hl]
    refine this.mpr (fun l hl => ?_) l hl
    show f l = _
    rw [h l hl]
    unfold cutz
    split_ifs <;> simp

/-- Primitives that start from zero. -/
theorem codeAx_prim {M L : Nat} {f : Nat → ℝ} (h : ∑ l ∈ range L, f l = 0) {l : Nat} (hl : l < L) :
    codeAx M L (fun l => ∑ k ∈ range l, f k) l = f l := by
  unfold codeAx
  beta_reduce
  rw [range_zero, sum_empty, ite_self, add_zero]
  by_cases c : l + 1 < L
  · rw [if_pos c, sum_range_succ]; ring
  · rw [if_neg c]
    have : L = l + 1 := by omega
    rw [this, sum_range_succ] at h
    linarith

theorem cyc_prim {M : Nat} {f : Nat → ℝ} (h : ∑ j ∈ range M, f j = 0) {j : Nat} (hj : j < M) (κ : ℝ) :
    cyc M (fun j => ∑ k ∈ range j, f k + κ) j = f j := by
  unfold cyc
  beta_reduce
  rcases Nat.lt_or_ge (j + 1) M with c | c
  · rw [Nat.mod_eq_of_lt c, sum_range_succ]; ring
  · have : M = j + 1 := by omega
    rw [this, sum_range_succ] at h
    rw [this, Nat.mod_self, range_zero, sum_empty]; linarith

theorem sum_cyc {M : Nat} (f : Nat → ℝ) : ∑ j ∈ range M, cyc M f j = 0 := Arr.sum_cyclic f

/-- The sums of the cosines and sines of the control angles vanish. -/
theorem sum_ang {M : Nat} (hM : 2 ≤ M) : ∑ j ∈ range M, Real.cos (ang M j) = 0 ∧ ∑ j ∈ range M, Real.sin (ang M j) = 0 := by
  have hM0 : (M : ℝ) ≠ 0 := by positivity
  have hs : Real.sin (Real.pi / M) ≠ 0 := by
    apply ne_of_gt
    apply Real.sin_pos_of_pos_of_lt_pi (by positivity)
    have : (2 : ℝ) ≤ M := by exact_mod_cast hM
    rw [div_lt_iff₀ (by positivity)]
    nlinarith [Real.pi_pos]
  have t : ∀ (g : Nat → ℝ) n, ∑ j ∈ range n, (g (j + 1) - g j) = g n - g 0 := fun g n => sum_range_sub g n
  constructor
  · have e : ∀ j ∈ range M, Real.cos (ang M j) = (Real.sin (ang M (j + 1) - Real.pi / M) - Real.sin (ang M j - Real.pi / M)) / (2 * Real.sin (Real.pi / M)) := by
      intro j _
      have : ang M (j + 1) - Real.pi / M = ang M j + Real.pi / M := by
        unfold ang; push_cast; field_simp; ring
      rw [this, Real.sin_add, Real.sin_sub]
      field_simp; ring
    rw [sum_congr rfl e, ← sum_div, t (fun j => Real.sin (ang M j - Real.pi / M))]
    have : ang M M - Real.pi / M = ang M 0 - Real.pi / M + 2 * Real.pi := by
      unfold ang; push_cast; field_simp; ring
    beta_reduce
    rw [this, Real.sin_add_two_pi, sub_self, zero_div]
  · have e : ∀ j ∈ range M, Real.sin (ang M j) = (-Real.cos (ang M (j + 1) - Real.pi / M) - -Real.cos (ang M j - Real.pi / M)) / (2 * Real.sin (Real.pi / M)) := by
      intro j _
      have : ang M (j + 1) - Real.pi / M = ang M j + Real.pi / M := by
        unfold ang; push_cast; field_simp; ring
      rw [this, Real.cos_add, Real.cos_sub]
      field_simp; ring
    rw [sum_congr rfl e, ← sum_div, t (fun j => -Real.cos (ang M j - Real.pi / M))]
    have : ang M M - Real.pi / M = ang M 0 - Real.pi / M + 2 * Real.pi := by
      unfold ang; push_cast; field_simp; ring
    beta_reduce
    rw [this, Real.cos_add_two_pi, sub_self, zero_div]

theorem sum_ang_diff {M : Nat} (hM : 1 ≤ M) : ∑ j ∈ range M, (Real.cos (ang M (j + 1)) - Real.cos (ang M j)) = 0 ∧
    ∑ j ∈ range M, (Real.sin (ang M (j + 1)) - Real.sin (ang M j)) = 0 := by
  have hM0 : (M : ℝ) ≠ 0 := by positivity
  have : ang M M = ang M 0 + 2 * Real.pi := by unfold ang; field_simp; simp
  rw [sum_range_sub (fun j => Real.cos (ang M j)), sum_range_sub (fun j => Real.sin (ang M j)), this]
  simp

/-! ## Conformity by slices -/

section conf
variable (polar dir : Bool) (N M L : Nat)

def P0 (ψ : Nat → Nat → Nat → ℝ) : Prop :=
  if polar = true then Polar0 N M L dir ψ else dir = true → ∀ i < N, ∀ j < M, ∀ l < L, (i = 0 ∨ i + 1 = N) → ψ i j l = 0
def P1 (a0 a1 : Nat → Nat → Nat → ℝ) : Prop :=
  if polar = true then Polar1 N M L dir a0 a1 else dir = true → ∀ i < N, ∀ j < M, ∀ l < L, (i = 0 ∨ i + 1 = N) → a1 i j l = 0
def P2 (b0 b1 : Nat → Nat → Nat → ℝ) : Prop :=
  if polar = true then Polar2 N M L dir b0 b1 else dir = true → ∀ i < N, ∀ j < M, ∀ l < L, (i = 0 ∨ i + 1 = N) → b0 i j l = 0
def P3 (f : Nat → Nat → Nat → ℝ) : Prop := polar = true → ∀ j < M, ∀ l < L, f 0 j l = 0

end conf

section conf
variable {polar dir : Bool} {N M L : Nat}

theorem conf0_iff (V : Nat → Nat → Nat → Nat → ℝ) : Conf polar dir N M L 0 V ↔ P0 polar dir N M L (V 0) := by
  unfold Conf P0
  split_ifs with hp
  · unfold PolarForm; rw [if_pos rfl]
  · constructor
    · intro h hd i hi j hj l hl e
      exact h hd 0 i j l (((dk_in N M L).1 _ _ _ _).mpr ⟨rfl, hi, hj, hl⟩) rfl e
    · intro h hd c i j l hin _ e
      obtain ⟨rfl, hi, hj, hl⟩ := ((dk_in N M L).1 _ _ _ _).mp hin
      exact h hd i hi j hj l hl e

theorem conf1_iff (V : Nat → Nat → Nat → Nat → ℝ) : Conf polar dir N M L 1 V ↔ P1 polar dir N M L (V 0) (V 1) ∧ P0 polar dir N M L (V 2) := by
  unfold Conf P0 P1
  split_ifs with hp
  · unfold PolarForm; rw [if_neg (by decide), if_pos rfl]
  · obtain ⟨_, i0, i1, i2, _⟩ := dk_in N M L
    constructor
    · intro h
      exact ⟨fun hd i hi j hj l hl e => h hd 1 i j l ((i1 _ _ _).mpr ⟨hi, hj, hl⟩) (by simp [isDeriv]) e,
        fun hd i hi j hj l hl e => h hd 2 i j l ((i2 _ _ _).mpr ⟨hi, hj, hl⟩) (by simp [isDeriv]) e⟩
    · rintro ⟨h1, h2⟩ hd c i j l hin hder e
      have hcc := hin.comp_lt
      simp [Dims.shape, dk] at hcc
      interval_cases c
      · simp [isDeriv] at hder
      · obtain ⟨hi, hj, hl⟩ := (i1 _ _ _).mp hin
        exact h1 hd i hi j hj l hl e
      · obtain ⟨hi, hj, hl⟩ := (i2 _ _ _).mp hin
        exact h2 hd i hi j hj l hl e

theorem conf2_iff (V : Nat → Nat → Nat → Nat → ℝ) : Conf polar dir N M L 2 V ↔ P2 polar dir N M L (V 0) (V 1) ∧ P3 polar M L (V 2) := by
  unfold Conf P2 P3
  split_ifs with hp
  · unfold PolarForm Polar3; rw [if_neg (by decide), if_neg (by decide), if_pos rfl]
    simp [hp]
  · obtain ⟨_, _, _, _, i0, i1, i2, _⟩ := dk_in N M L
    constructor
    · intro h
      exact ⟨fun hd i hi j hj l hl e => h hd 0 i j l ((i0 _ _ _).mpr ⟨hi, hj, hl⟩) (by simp [isDeriv]) e, fun e => absurd e hp⟩
    · rintro ⟨h1, _⟩ hd c i j l hin hder e
      have hcc := hin.comp_lt
      simp [Dims.shape, dk] at hcc
      interval_cases c
      · obtain ⟨hi, hj, hl⟩ := (i0 _ _ _).mp hin
        exact h1 hd i hi j hj l hl e
      · simp [isDeriv] at hder
      · simp [isDeriv] at hder

theorem conf3_iff (V : Nat → Nat → Nat → Nat → ℝ) : Conf polar dir N M L 3 V ↔ P3 polar M L (V 0) := by
  unfold Conf P3
  split_ifs with hp
  · unfold PolarForm Polar3; rw [if_neg (by decide), if_neg (by decide), if_neg (by decide), if_pos rfl]
    simp [hp]
  · constructor
    · intro _ e; exact absurd e hp
    · intro _ hd c i j l hin hder e
      simp [isDeriv] at hder

/-! ### Closure -/

theorem P0.add {ψ χ : Nat → Nat → Nat → ℝ} (h : P0 polar dir N M L ψ) (h' : P0 polar dir N M L χ) : P0 polar dir N M L (fun i j l => ψ i j l + χ i j l) := by
  unfold P0 at *
  split_ifs at * with hp
  · obtain ⟨⟨a, b, c, e⟩, z⟩ := h
    obtain ⟨⟨a', b', c', e'⟩, z'⟩ := h'
    refine ⟨⟨fun l => a l + a' l, fun l => b l + b' l, fun l => c l + c' l, fun j hj l hl => ⟨?_, ?_⟩⟩, fun hd j hj l hl => ?_⟩
    · beta_reduce; rw [(e j hj l hl).1, (e' j hj l hl).1]
    · beta_reduce; rw [(e j hj l hl).2, (e' j hj l hl).2]; ring
    · beta_reduce; rw [z hd j hj l hl, z' hd j hj l hl, add_zero]
  · intro hd i hi j hj l hl e
    beta_reduce; rw [h hd i hi j hj l hl e, h' hd i hi j hj l hl e, add_zero]

/-- Axial primitives conform. -/
theorem P0.prim {a : Nat → Nat → Nat → ℝ} (h : P0 polar dir N M L a) : P0 polar dir N M L (fun i j l => ∑ k ∈ range l, a i j k) := by
  unfold P0 at *
  have lt : ∀ {l k}, l < L → k ∈ range l → k < L := fun hl hk => by have := mem_range.mp hk; omega
  split_ifs at * with hp
  · obtain ⟨⟨α, β, γ, e⟩, z⟩ := h
    refine ⟨⟨fun l => ∑ k ∈ range l, α k, fun l => ∑ k ∈ range l, β k, fun l => ∑ k ∈ range l, γ k, fun j hj l hl => ⟨?_, ?_⟩⟩, fun hd j hj l hl => ?_⟩
    · exact sum_congr rfl fun k hk => (e j hj k (lt hl hk)).1
    · beta_reduce
      rw [sum_congr rfl fun k hk => (e j hj k (lt hl hk)).2, sum_add_distrib, sum_add_distrib, sum_mul, sum_mul]
    · exact sum_eq_zero fun k hk => z hd j hj k (lt hl hk)
  · intro hd i hi j hj l hl e
    exact sum_eq_zero fun k hk => h hd i hi j hj k (lt hl hk) e

/-- Poloidal primitives of a slice, with mean zero. -/
noncomputable def tprim (M : Nat) (a : Nat → Nat → ℝ) (i j : Nat) : ℝ := ∑ k ∈ range j, a i k + -((∑ j ∈ range M, ∑ k ∈ range j, a i k) / M)

theorem sum_tprim {M : Nat} (hM : 1 ≤ M) (a : Nat → Nat → ℝ) (i : Nat) : ∑ j ∈ range M, tprim M a i j = 0 := by
  unfold tprim
  have : (M : ℝ) ≠ 0 := by positivity
  rw [sum_add_distrib, sum_const, card_range, nsmul_eq_mul]
  field_simp; ring

theorem P1.tprim {a0 a1 : Nat → Nat → Nat → ℝ} (hp3 : polar = true → 3 ≤ M) (hM : 1 ≤ M) (hL : 1 ≤ L) (h : P1 polar dir N M L a0 a1) :
    P0 polar dir N M L (fun i j l => tprim M (fun i j => a1 i j 0) i j * cutz M l) := by
  unfold P0 P1 at *
  have lt : ∀ {j k}, j < M → k ∈ range j → k < M := fun hl hk => by have := mem_range.mp hk; omega
  have ze : ∀ i, (∀ j < M, a1 i j 0 = 0) → ∀ j < M, Mrx.tprim M (fun i j => a1 i j 0) i j = 0 := by
    intro i hi j hj
    unfold Mrx.tprim
    rw [sum_eq_zero fun k hk => hi k (lt hj hk), sum_eq_zero fun j hj => sum_eq_zero fun k hk => hi k (lt (mem_range.mp hj) hk)]
    simp
  split_ifs at * with hp
  · have hM3 := hp3 hp
    obtain ⟨⟨β, γ, e⟩, z⟩ := h
    refine ⟨⟨fun _ => 0, fun l => β 0 * cutz M l, fun l => γ 0 * cutz M l, fun j hj l hl => ⟨?_, ?_⟩⟩, fun hd j hj l hl => ?_⟩
    · beta_reduce
      rw [ze 0 (fun j hj => (e j hj 0 (by omega)).2.1) j hj, zero_mul]
    · beta_reduce
      obtain ⟨s1, s2⟩ := sum_ang (M := M) (by omega)
      have q : ∀ j ≤ M, ∑ k ∈ range j, a1 1 k 0 = β 0 * (Real.cos (ang M j) - Real.cos (ang M 0)) + γ 0 * (Real.sin (ang M j) - Real.sin (ang M 0)) := by
        intro j hj
        rw [sum_congr rfl fun k hk => (e k (by have := mem_range.mp hk; omega) 0 (by omega)).2.2, sum_add_distrib, ← mul_sum, ← mul_sum,
          sum_range_sub (fun j => Real.cos (ang M j)), sum_range_sub (fun j => Real.sin (ang M j))]
      have q2 : ∑ j ∈ range M, ∑ k ∈ range j, a1 1 k 0 = -(M * (β 0 * Real.cos (ang M 0) + γ 0 * Real.sin (ang M 0))) := by
        rw [sum_congr rfl fun j hj => q j (mem_range.mp hj).le, sum_add_distrib, ← mul_sum, ← mul_sum, sum_sub_distrib, sum_sub_distrib, s1, s2,
          sum_const, sum_const, card_range, nsmul_eq_mul, nsmul_eq_mul]
        ring
      unfold Mrx.tprim
      rw [q j hj.le, q2]
      have : (M : ℝ) ≠ 0 := by positivity
      field_simp; ring
    · beta_reduce
      rw [ze (N - 1) (fun j hj => z hd j hj 0 (by omega)) j hj, zero_mul]
  · intro hd i hi j hj l hl e
    beta_reduce
    rw [ze i (fun j hj => h hd i hi j hj 0 (by omega) e) j hj, zero_mul]

theorem P0.profile {f : Fin N → ℝ} (hN : 2 ≤ N) (hp3 : polar = true → 3 ≤ N) (hf : f ∈ F0 polar dir N) (w : Nat → ℝ) :
    P0 polar dir N M L (fun i _ l => exf f i * w l) := by
  obtain ⟨a, b, c⟩ := mem_F0.mp hf
  unfold P0
  split_ifs with hp
  · refine ⟨⟨fun l => exf f 0 * w l, fun _ => 0, fun _ => 0, fun j hj l hl => ⟨rfl, ?_⟩⟩, fun hd j hj l hl => ?_⟩
    · beta_reduce; rw [a hp]; ring
    · beta_reduce; rw [b hd, zero_mul]
  · intro hd i hi j hj l hl e
    beta_reduce
    rcases e with rfl | e
    · rw [c (by simpa using hp) hd, zero_mul]
    · rw [show i = N - 1 by omega, b hd, zero_mul]

theorem P0.sum {ψ : Nat → Nat → Nat → ℝ} (hN : 2 ≤ N) (hp3 : polar = true → 3 ≤ N ∧ 3 ≤ M) (hM : 1 ≤ M) (h : P0 polar dir N M L ψ) {l : Nat} (hl : l < L) :
    (fun i : Fin N => ∑ j ∈ range M, ψ i j l) ∈ F0 polar dir N := by
  have ev : ∀ i < N, exf (fun i : Fin N => ∑ j ∈ range M, ψ i j l) i = ∑ j ∈ range M, ψ i j l := fun i hi => exf_of (fun i => ∑ j ∈ range M, ψ i j l) hi
  rw [mem_F0]
  unfold P0 at h
  refine ⟨fun hp => ?_, fun hd => ?_, fun hp hd => ?_⟩
  · rw [if_pos hp] at h
    obtain ⟨⟨α, β, γ, e⟩, z⟩ := h
    have := hp3 hp
    obtain ⟨s1, s2⟩ := sum_ang (M := M) (by omega)
    rw [ev 1 (by omega), ev 0 (by omega), sum_congr rfl fun j hj => (e j (mem_range.mp hj) l hl).2, sum_congr rfl fun j hj => (e j (mem_range.mp hj) l hl).1,
      sum_add_distrib, sum_add_distrib, ← mul_sum, ← mul_sum, s1, s2]
    ring
  · rw [ev _ (by omega)]
    refine sum_eq_zero fun j hj => ?_
    split_ifs at h with hp
    · exact h.2 hd j (mem_range.mp hj) l hl
    · exact h hd (N - 1) (by omega) j (mem_range.mp hj) l hl (Or.inr (by omega))
  · rw [ev _ (by omega)]
    rw [if_neg (by simp [hp])] at h
    exact sum_eq_zero fun j hj => h hd 0 (by omega) j (mem_range.mp hj) l hl (Or.inl rfl)

theorem P1.sum1 {a0 a1 : Nat → Nat → Nat → ℝ} (hN : 2 ≤ N) (hp3 : polar = true → 3 ≤ N ∧ 3 ≤ M) (hM : 1 ≤ M) (h : P1 polar dir N M L a0 a1) {l : Nat} (hl : l < L) :
    (fun i : Fin N => ∑ j ∈ range M, a1 i j l) ∈ F1 polar dir N := by
  have ev : ∀ i < N, exf (fun i : Fin N => ∑ j ∈ range M, a1 i j l) i = ∑ j ∈ range M, a1 i j l := fun i hi => exf_of (fun i => ∑ j ∈ range M, a1 i j l) hi
  rw [mem_F1]
  unfold P1 at h
  refine ⟨fun hp => ?_, fun hd => ?_, fun hp hd => ?_⟩
  · rw [if_pos hp] at h
    obtain ⟨⟨β, γ, e⟩, z⟩ := h
    have := hp3 hp
    obtain ⟨s1, s2⟩ := sum_ang_diff hM
    rw [ev 1 (by omega), ev 0 (by omega), sum_congr rfl fun j hj => (e j (mem_range.mp hj) l hl).2.2, sum_congr rfl fun j hj => (e j (mem_range.mp hj) l hl).2.1,
      sum_add_distrib, ← mul_sum, ← mul_sum, s1, s2]
    simp
  · rw [ev _ (by omega)]
    refine sum_eq_zero fun j hj => ?_
    split_ifs at h with hp
    · exact h.2 hd j (mem_range.mp hj) l hl
    · exact h hd (N - 1) (by omega) j (mem_range.mp hj) l hl (Or.inr (by omega))
  · rw [ev _ (by omega)]
    rw [if_neg (by simp [hp])] at h
    exact sum_eq_zero fun j hj => h hd 0 (by omega) j (mem_range.mp hj) l hl (Or.inl rfl)

theorem P1.sum0 {a0 a1 : Nat → Nat → Nat → ℝ} (hp3 : polar = true → 3 ≤ N ∧ 3 ≤ M) (h : P1 polar dir N M L a0 a1) {l : Nat} (hl : l < L) :
    (fun i : Fin (N - 1) => ∑ j ∈ range M, a0 i j l) ∈ G1 polar N := by
  rw [mem_G1]
  intro hp
  have := hp3 hp
  unfold P1 at h
  rw [if_pos hp] at h
  obtain ⟨⟨β, γ, e⟩, z⟩ := h
  obtain ⟨s1, s2⟩ := sum_ang (M := M) (by omega)
  rw [exf_of (fun i => ∑ j ∈ range M, a0 i j l) (by omega), sum_congr rfl fun j hj => (e j (mem_range.mp hj) l hl).1, sum_add_distrib, ← mul_sum, ← mul_sum, s1, s2]
  simp

theorem P2.sum {b0 b1 : Nat → Nat → Nat → ℝ} (hN : 2 ≤ N) (hp3 : polar = true → 3 ≤ N ∧ 3 ≤ M) (hM : 1 ≤ M) (h : P2 polar dir N M L b0 b1) :
    (fun i : Fin N => ∑ l ∈ range L, ∑ j ∈ range M, b0 i j l) ∈ F1 polar dir N := by
  have ev : ∀ i < N, exf (fun i : Fin N => ∑ l ∈ range L, ∑ j ∈ range M, b0 i j l) i = ∑ l ∈ range L, ∑ j ∈ range M, b0 i j l :=
    fun i hi => exf_of (fun i => ∑ l ∈ range L, ∑ j ∈ range M, b0 i j l) hi
  rw [mem_F1]
  unfold P2 at h
  refine ⟨fun hp => ?_, fun hd => ?_, fun hp hd => ?_⟩
  · rw [if_pos hp] at h
    obtain ⟨⟨β, γ, e⟩, z⟩ := h
    have := hp3 hp
    obtain ⟨s1, s2⟩ := sum_ang_diff hM
    rw [ev 1 (by omega), ev 0 (by omega)]
    constructor
    · exact sum_eq_zero fun l hl => sum_eq_zero fun j hj => (e j (mem_range.mp hj) l (mem_range.mp hl)).1
    · refine sum_eq_zero fun l hl => ?_
      rw [sum_congr rfl fun j hj => (e j (mem_range.mp hj) l (mem_range.mp hl)).2.1, sum_add_distrib, ← mul_sum, ← mul_sum, s1, s2]
      simp
  · rw [ev _ (by omega)]
    refine sum_eq_zero fun l hl => sum_eq_zero fun j hj => ?_
    split_ifs at h with hp
    · exact h.2 hd j (mem_range.mp hj) l (mem_range.mp hl)
    · exact h hd (N - 1) (by omega) j (mem_range.mp hj) l (mem_range.mp hl) (Or.inr (by omega))
  · rw [ev _ (by omega)]
    rw [if_neg (by simp [hp])] at h
    exact sum_eq_zero fun l hl => sum_eq_zero fun j hj => h hd 0 (by omega) j (mem_range.mp hj) l (mem_range.mp hl) (Or.inl rfl)

/-- 1-forms from profiles. -/
theorem P1.profile {f : Fin N → ℝ} {g : Fin (N - 1) → ℝ} (hN : 2 ≤ N) (hf : f ∈ F1 polar dir N) (hg : g ∈ G1 polar N) (w v : Nat → Nat → ℝ) :
    P1 polar dir N M L (fun i j l => exf g i * v j l) (fun i j l => exf f i * w j l) := by
  obtain ⟨a, b, c⟩ := mem_F1.mp hf
  unfold P1
  split_ifs with hp
  · refine ⟨⟨fun _ => 0, fun _ => 0, fun j hj l hl => ⟨?_, ?_, ?_⟩⟩, fun hd j hj l hl => ?_⟩
    · beta_reduce; rw [mem_G1.mp hg hp]; ring
    · beta_reduce; rw [(a hp).1, zero_mul]
    · beta_reduce; rw [(a hp).2]; ring
    · beta_reduce; rw [b hd, zero_mul]
  · intro hd i hi j hj l hl e
    beta_reduce
    rcases e with rfl | e
    · rw [c (by simpa using hp) hd, zero_mul]
    · rw [show i = N - 1 by omega, b hd, zero_mul]

/-- 2-forms from profiles. -/
theorem P2.profile {f : Fin N → ℝ} (hN : 2 ≤ N) (hf : f ∈ F1 polar dir N) (w : Nat → Nat → ℝ) {b1 : Nat → Nat → Nat → ℝ}
    (hb : polar = true → ∀ j < M, ∀ l < L, b1 0 j l = 0) : P2 polar dir N M L (fun i j l => exf f i * w j l) b1 := by
  obtain ⟨a, b, c⟩ := mem_F1.mp hf
  unfold P2
  split_ifs with hp
  · refine ⟨⟨fun _ => 0, fun _ => 0, fun j hj l hl => ⟨?_, ?_, ?_⟩⟩, fun hd j hj l hl => ?_⟩
    · beta_reduce; rw [(a hp).1, zero_mul]
    · beta_reduce; rw [(a hp).2]; ring
    · rw [hb hp j hj l hl]; ring
    · beta_reduce; rw [b hd, zero_mul]
  · intro hd i hi j hj l hl e
    beta_reduce
    rcases e with rfl | e
    · rw [c (by simpa using hp) hd, zero_mul]
    · rw [show i = N - 1 by omega, b hd, zero_mul]

end conf
end Mrx
