import Verif.Proofs.Iota
import Verif.Proofs.Maps
import Verif.Spec.Maps
import Verif.Props.Mappings2
import Mathlib.Analysis.SpecificLimits.Basic

/-! # C91: the rotational transform of the plotting scripts -/

set_option linter.unusedSectionVars false
set_option linter.unusedVariables false

namespace Mrx.Props
open Mrx Mrx.Spec Real Matrix

/-- `Θ` is a polar angle of the point `(x, y)` of the plane: the point is not the origin and lies in the direction `Θ`. -/
def IsPolarAngle (x y Θ : ℝ) : Prop := ∃ ρ : ℝ, 0 < ρ ∧ x = ρ * cos Θ ∧ y = ρ * sin Θ

/-- The distance of a point from the `z` axis. -/
noncomputable def axisDistance (P : V3) : ℝ := √ (P 0 ^ 2 + P 1 ^ 2)

/-! ## Counting turns -/

/-- **C91** the number of toroidal turns: if the polar angle of the samples moves by less than half a turn between two samples, the
result is the angle travelled divided by `2π`, for every trace. -/
theorem C91_toroidal_turns {N : Nat} (hN : 0 < N) (P : Nat → V3) (Θ : Nat → ℝ) (hΘ : ∀ k, k < N → IsPolarAngle (P k 0) (P k 1) (Θ k))
    (hs : ∀ k, k + 1 < N → |Θ (k + 1) - Θ k| < π) :
    (iotaOfTrace N P).2.2 = (Θ (N - 1) - Θ 0) / (2 * π) := by
  change (unwrap (fun k => arctan2 (P k 1) (P k 0)) (N - 1) - unwrap (fun k => arctan2 (P k 1) (P k 0)) 0) / (2 * π) = _
  rw [unwrap_lift _ Θ N (fun k hk => ?_) hs (N - 1) (by omega)]
  obtain ⟨ρ, hρ, hx, hy⟩ := hΘ k hk
  exact arctan2_of_polar hρ hx hy

/-- **C91** the number of poloidal turns about any centre, in the same way. -/
theorem C91_poloidal_turns {N : Nat} (hN : 0 < N) (R Z : Nat → ℝ) (Rc Zc : ℝ) (Θ : Nat → ℝ) (hΘ : ∀ k, k < N → IsPolarAngle (R k - Rc) (Z k - Zc) (Θ k))
    (hs : ∀ k, k + 1 < N → |Θ (k + 1) - Θ k| < π) :
    poloidalUnwrapped N R Z Rc Zc = (Θ (N - 1) - Θ 0) / (2 * π) := by
  change (unwrap (fun k => arctan2 (Z k - Zc) (R k - Rc)) (N - 1) - unwrap (fun k => arctan2 (Z k - Zc) (R k - Rc)) 0) / (2 * π) = _
  rw [unwrap_lift _ Θ N (fun k hk => ?_) hs (N - 1) (by omega)]
  obtain ⟨ρ, hρ, hx, hy⟩ := hΘ k hk
  exact arctan2_of_polar hρ hx hy

/-- **C91** whatever the samples are, the result differs from the true number of turns by an integer, and `N` samples never give more
than `(N − 1)/2` turns. -/
theorem C91_turns_mod_one {N : Nat} (hN : 0 < N) (P : Nat → V3) :
    (∀ Θ : Nat → ℝ, (∀ k, k < N → IsPolarAngle (P k 0) (P k 1) (Θ k)) →
      ∃ j : Int, (iotaOfTrace N P).2.2 = (Θ (N - 1) - Θ 0) / (2 * π) + j)
      ∧ |(iotaOfTrace N P).2.2| ≤ ((N - 1 : Nat) : ℝ) / 2 := by
  have hpi := pi_pos
  have main : ∀ p : Nat → ℝ, ∀ k, (∃ j : Int, unwrap p k = p k + 2 * π * j) ∧ |unwrap p k - unwrap p 0| ≤ k * π := by
    intro p k
    induction k with
    | zero => exact ⟨⟨0, by simp [unwrap_zero]⟩, by simp⟩
    | succ k ih =>
      obtain ⟨⟨j, hj⟩, hb⟩ := ih
      obtain ⟨⟨i, hi⟩, hc⟩ := phCorrect_spec (p (k + 1) - p k)
      rw [unwrap_succ]
      refine ⟨⟨j + i, by rw [hj, hi]; push_cast; ring⟩, ?_⟩
      rw [abs_le] at hb hc ⊢
      push_cast
      constructor <;> linarith
  obtain ⟨p, hp⟩ : ∃ p : Nat → ℝ, p = fun k => arctan2 (P k 1) (P k 0) := ⟨_, rfl⟩
  have hval : (iotaOfTrace N P).2.2 = (unwrap p (N - 1) - unwrap p 0) / (2 * π) := by rw [hp]; rfl
  rw [hval]
  constructor
  · intro Θ hΘ
    obtain ⟨⟨j, hj⟩, -⟩ := main p (N - 1)
    have h1 : ∀ k, k < N → ∃ j : Int, p k = Θ k + 2 * π * j := by
      intro k hk
      obtain ⟨ρ, hρ, hx, hy⟩ := hΘ k hk
      rw [hp]
      exact arctan2_of_polar hρ hx hy
    obtain ⟨a, ha⟩ := h1 (N - 1) (by omega)
    obtain ⟨b, hb⟩ := h1 0 hN
    refine ⟨a + j - b, ?_⟩
    rw [hj, unwrap_zero, ha, hb]
    push_cast
    field_simp
    ring
  · obtain ⟨-, hb⟩ := main p (N - 1)
    rw [abs_div, abs_of_pos (show (0 : ℝ) < 2 * π by positivity), div_le_iff₀ (by positivity)]
    linarith

/-- **C91 (finding)** a line that turns by more than half a turn between two samples is reported as turning the other way: `α` per sample
with `π < α < 2π` is counted as `α − 2π`. -/
theorem C91_aliasing {N : Nat} (hN : 0 < N) (P : Nat → V3) {α Φ : ℝ} (h1 : π < α) (h2 : α < 2 * π)
    (hP : ∀ k, k < N → IsPolarAngle (P k 0) (P k 1) (Φ + k * α)) :
    (iotaOfTrace N P).2.2 = ((N - 1 : Nat) : ℝ) * (α - 2 * π) / (2 * π) := by
  rw [C91_toroidal_turns hN P (fun k => Φ + k * (α - 2 * π))]
  · simp
  · intro k hk
    obtain ⟨ρ, hρ, hx, hy⟩ := hP k hk
    refine ⟨ρ, hρ, ?_, ?_⟩
    · rw [hx, show Φ + k * (α - 2 * π) = Φ + k * α - k * (2 * π) by ring, cos_sub_nat_mul_two_pi]
    · rw [hy, show Φ + k * (α - 2 * π) = Φ + k * α - k * (2 * π) by ring, sin_sub_nat_mul_two_pi]
  · intro k hk
    push_cast
    rw [show Φ + (k + 1) * (α - 2 * π) - (Φ + k * (α - 2 * π)) = α - 2 * π by ring, abs_lt]
    constructor <;> linarith

/-- **C91** reversing a trace changes the sign of both turn numbers and leaves the reported rotational transform as it is. -/
theorem C91_reverse (N : Nat) (hN : 0 < N) (P : Nat → V3) :
    iotaOfTrace N (fun k => P (N - 1 - k)) = ((iotaOfTrace N P).1, -(iotaOfTrace N P).2.1, -(iotaOfTrace N P).2.2) := by
  have hmean : ∀ v : Nat → ℝ, jmean N (fun k => v (N - 1 - k)) = jmean N v := by
    intro v
    unfold jmean
    rw [Finset.sum_range_reflect]
  have step : ∀ p : Nat → ℝ, ∀ k, k < N → unwrap (fun k => p (N - 1 - k)) k - unwrap (fun k => p (N - 1 - k)) 0
      = -(unwrap p (N - 1) - unwrap p (N - 1 - k)) := by
    intro p k
    induction k with
    | zero => intro _; simp
    | succ k ih =>
      intro hk
      have h1 := ih (by omega)
      rw [unwrap_succ]
      have h2 := unwrap_succ p (N - 1 - (k + 1))
      rw [show N - 1 - (k + 1) + 1 = N - 1 - k by omega] at h2
      have h3 := phCorrect_neg (p (N - 1 - k) - p (N - 1 - (k + 1)))
      rw [neg_sub] at h3
      rw [h3]
      linarith
  have turns : ∀ p : Nat → ℝ, (unwrap (fun k => p (N - 1 - k)) (N - 1) - unwrap (fun k => p (N - 1 - k)) 0) / (2 * π)
      = -((unwrap p (N - 1) - unwrap p 0) / (2 * π)) := by
    intro p
    rw [step p (N - 1) (by omega), Nat.sub_self, neg_div]
  have t1 := turns (fun k => arctan2 (cylSigned (P k) 2 - jmean N fun k => cylSigned (P k) 2) (|cylSigned (P k) 0| - jmean N fun k => |cylSigned (P k) 0|))
  have t2 := turns (fun k => cylSigned (P k) 1)
  unfold iotaOfTrace getIota poloidalUnwrapped toroidalUnwrapped
  beta_reduce
  rw [hmean (fun k => |cylSigned (P k) 0|), hmean (fun k => cylSigned (P k) 2)]
  exact Prod.ext ((congrArg₂ (fun a b : ℝ => |a / b|) t1 t2).trans (congrArg abs (neg_div_neg_eq _ _))) (Prod.ext t1 t2)

/-! ## Traces of a field line -/

theorem fract_shift {F : V3 → V3} (h1 : PeriodicIn 1 F) (h2 : PeriodicIn 2 F) (y : V3) (a b : Int) :
    F (y + Pi.single 1 (a : ℝ) + Pi.single 2 (b : ℝ)) = F y := by
  have nat : ∀ j : Fin 3, PeriodicIn j F → ∀ y : V3, ∀ n : Nat, F (y + Pi.single j (n : ℝ)) = F y := by
    intro j hj y n
    induction n with
    | zero => simp
    | succ n ih =>
      have := hj (y + Pi.single j (n : ℝ))
      rw [add_assoc, ← Pi.single_add, ih] at this
      push_cast
      exact this
  have int : ∀ j : Fin 3, PeriodicIn j F → ∀ y : V3, ∀ n : Int, F (y + Pi.single j (n : ℝ)) = F y := by
    intro j hj y n
    obtain ⟨k, rfl | rfl⟩ := n.eq_nat_or_neg
    · exact_mod_cast nat j hj y k
    · have := nat j hj (y + Pi.single j ((-(k : Int) : Int) : ℝ)) k
      rw [← this, add_assoc, ← Pi.single_add]
      push_cast
      rw [neg_add_cancel, Pi.single_zero, add_zero]
  rw [int 2 h2, int 1 h1]

theorem jacfwd_mulVec_fderiv (F : V3 → V3) (x v : V3) : jacfwd F x *ᵥ v = fderiv ℝ F x v := by
  have hv : v = ∑ j, v j • (Pi.single j (1 : ℝ) : V3) := by
    ext i; simp [Finset.sum_apply, Pi.single_apply]
  funext i
  conv_rhs => rw [hv]
  rw [map_sum, Finset.sum_apply]
  simp only [mulVec, dotProduct, jacfwd, map_smul, Pi.smul_apply, smul_eq_mul]
  exact Finset.sum_congr rfl fun j _ => mul_comm _ _

/-- **C91** the curves that `integrate_fieldline` traces have unit speed in physical space: if the logical curve solves the equation, stays
in `0 ≤ r < 1`, and the map is periodic in the two angles, then its image moves at speed one along the field (push-forward direction). -/
theorem C91_unit_speed {F B : V3 → V3} (h1 : PeriodicIn 1 F) (h2 : PeriodicIn 2 F) (X : ℝ → V3) (t : ℝ) (hX : HasDerivAt X (traceField F B (X t)) t)
    (h0 : 0 ≤ X t 0) (h0' : X t 0 < 1) (hF : DifferentiableAt ℝ F (fun j => Int.fract (X t j)))
    (hB : jacfwd F (fun j => Int.fract (X t j)) *ᵥ B (fun j => Int.fract (X t j)) ≠ 0) :
    ∃ v : V3, HasDerivAt (fun τ => F (X τ)) v t ∧ norm3 v = 1
      ∧ ∃ c : ℝ, 0 < c ∧ v = c • (jacfwd F (fun j => Int.fract (X t j)) *ᵥ B (fun j => Int.fract (X t j))) := by
  obtain ⟨y, hy⟩ : ∃ y : V3, y = fun j => Int.fract (X t j) := ⟨_, rfl⟩
  obtain ⟨s, hs⟩ : ∃ s : V3, s = Pi.single 1 (⌊X t 1⌋ : ℝ) + Pi.single 2 (⌊X t 2⌋ : ℝ) := ⟨_, rfl⟩
  rw [← hy] at hF hB
  have hys : X t = y + s := by
    rw [hy, hs]
    funext j
    fin_cases j
    · change X t 0 = Int.fract (X t 0) + (Pi.single (M := fun _ : Fin 3 => ℝ) 1 (⌊X t 1⌋ : ℝ) 0 + Pi.single (M := fun _ : Fin 3 => ℝ) 2 (⌊X t 2⌋ : ℝ) 0)
      rw [Int.fract_eq_self.2 ⟨h0, h0'⟩]; simp
    · change X t 1 = Int.fract (X t 1) + (Pi.single (M := fun _ : Fin 3 => ℝ) 1 (⌊X t 1⌋ : ℝ) 1 + Pi.single (M := fun _ : Fin 3 => ℝ) 2 (⌊X t 2⌋ : ℝ) 1)
      simp
    · change X t 2 = Int.fract (X t 2) + (Pi.single (M := fun _ : Fin 3 => ℝ) 1 (⌊X t 1⌋ : ℝ) 2 + Pi.single (M := fun _ : Fin 3 => ℝ) 2 (⌊X t 2⌋ : ℝ) 2)
      simp
  have hshift : ∀ z, F z = F (z - s) := by
    intro z
    have := fract_shift h1 h2 (z - s) ⌊X t 1⌋ ⌊X t 2⌋
    rw [add_assoc, ← hs, sub_add_cancel] at this
    exact this
  have hfd : HasFDerivAt F (fderiv ℝ F y) (X t) := by
    have e : (F ∘ fun z : V3 => id z - s) = F := funext fun z => (hshift z).symm
    have hd : HasFDerivAt F (fderiv ℝ F y) (X t - s) := by rw [hys, add_sub_cancel_right]; exact hF.hasFDerivAt
    have := hd.comp (X t) ((hasFDerivAt_id (X t)).sub_const s)
    rw [e, ContinuousLinearMap.comp_id] at this
    exact this
  have hn : norm3 (jacfwd F y *ᵥ B y) ≠ 0 := fun h => hB (norm3_eq_zero.1 h)
  have hp : 0 < norm3 (jacfwd F y *ᵥ B y) := lt_of_le_of_ne (sqrt_nonneg _) (Ne.symm hn)
  refine ⟨(norm3 (jacfwd F y *ᵥ B y))⁻¹ • (jacfwd F y *ᵥ B y), ?_, ?_, _, inv_pos.2 hp, by rw [hy]⟩
  · have := hfd.comp_hasDerivAt t hX
    refine this.congr_deriv ?_
    unfold traceField
    beta_reduce
    rw [← hy, map_smul, ← jacfwd_mulVec_fderiv]
  · rw [norm3_smul, abs_of_pos (inv_pos.2 hp), inv_mul_cancel₀ hn]

/-- **C91** the field that `get_crossings` follows has, at the clipped and wrapped point it is evaluated at, a push-forward of length one; the one
of `generate_solovev_plots` is shorter than one by the factor `|B| / (|B| + 1e-9)`, also where the field vanishes. -/
theorem C91_other_fields (lo : ℝ) (F B : V3 → V3) (x : V3) :
    (∀ y : V3, y = ![min (max (Int.fract (x 0)) lo) 1, Int.fract (x 1), Int.fract (x 2)] →
      jacfwd F y *ᵥ B y ≠ 0 → norm3 (jacfwd F y *ᵥ crossingField lo F B x) = 1)
      ∧ (∀ y : V3, y = ![min (max (x 0) 1e-6) 1, Int.fract (x 1), Int.fract (x 2)] →
        norm3 (jacfwd F y *ᵥ plotField F B x) = norm3 (jacfwd F y *ᵥ B y) / (norm3 (jacfwd F y *ᵥ B y) + 1e-9)
          ∧ norm3 (jacfwd F y *ᵥ plotField F B x) < 1) := by
  constructor
  · rintro y rfl hne
    obtain ⟨y, hy⟩ : ∃ y : V3, y = ![min (max (Int.fract (x 0)) lo) 1, Int.fract (x 1), Int.fract (x 2)] := ⟨_, rfl⟩
    rw [← hy] at hne ⊢
    have hn : norm3 (jacfwd F y *ᵥ B y) ≠ 0 := fun h => hne (norm3_eq_zero.1 h)
    have hp : 0 < norm3 (jacfwd F y *ᵥ B y) := lt_of_le_of_ne (sqrt_nonneg _) (Ne.symm hn)
    have e : crossingField lo F B x = (norm3 (jacfwd F y *ᵥ B y))⁻¹ • B y := by rw [hy]; rfl
    rw [e, mulVec_smul, norm3_smul, abs_of_pos (inv_pos.2 hp), inv_mul_cancel₀ hn]
  · intro y hy
    have hp : 0 ≤ norm3 (jacfwd F y *ᵥ B y) := sqrt_nonneg _
    have e : plotField F B x = (norm3 (jacfwd F y *ᵥ B y) + 1e-9)⁻¹ • B y := by
      have hd : norm3 (jacfwd F y *ᵥ B y) = √ ((jacfwd F y *ᵥ B y) ⬝ᵥ (jacfwd F y *ᵥ B y)) := by
        unfold norm3
        congr 1
        simp only [dotProduct, Fin.sum_univ_three]
        ring
      rw [hd, hy]
      rfl
    have hv : norm3 (jacfwd F y *ᵥ plotField F B x) = norm3 (jacfwd F y *ᵥ B y) / (norm3 (jacfwd F y *ᵥ B y) + 1e-9) := by
      rw [e, mulVec_smul, norm3_smul, abs_of_pos (by positivity), inv_mul_eq_div]
    refine ⟨hv, ?_⟩
    rw [hv, div_lt_one (by positivity)]
    norm_num

/-- **C91** cylindrical coordinates: what `poincare_plot` and `F_cyl_signed` compute describes the point, `(R cos φ, R sin φ, z)`. -/
theorem C91_cylindrical (F : V3 → V3) (p : V3) :
    F p = ![cylPoint F p 0 * cos (cylPoint F p 1), cylPoint F p 0 * sin (cylPoint F p 1), cylPoint F p 2] ∧ 0 ≤ cylPoint F p 0
      ∧ cylSigned (F p) 1 = cylPoint F p 1 ∧ cylSigned (F p) 2 = cylPoint F p 2 := by
  obtain ⟨h0, h1⟩ := polar_arctan2 ((F p) 0) ((F p) 1)
  refine ⟨?_, sqrt_nonneg _, rfl, rfl⟩
  funext j
  fin_cases j
  · exact h0
  · exact h1
  · rfl

/-- **C91** sampling: a curve of speed at most one that stays at distance at least `ρ` from the axis is sampled finely enough if the
spacing `T/(N − 1)` of the `N` save points is less than `πρ`: the reported number of toroidal turns is then exact. -/
theorem C91_turns_of_curve {N : Nat} (hN : 2 ≤ N) (γ γ' : ℝ → V3) (r r' Θ Θ' : ℝ → ℝ) {T ρ : ℝ} (hT : 0 ≤ T) (hρ : 0 < ρ)
    (hγ : ∀ t, HasDerivAt γ (γ' t) t) (hspeed : ∀ t, norm3 (γ' t) ≤ 1) (hr : ∀ t, HasDerivAt r (r' t) t) (hΘ : ∀ t, HasDerivAt Θ (Θ' t) t)
    (hx : ∀ t, γ t 0 = r t * cos (Θ t)) (hy : ∀ t, γ t 1 = r t * sin (Θ t)) (hfar : ∀ t, ρ ≤ r t) (hsamp : T / ((N - 1 : Nat) : ℝ) < π * ρ) :
    (iotaOfTrace N (fun k => γ (T * k / ((N - 1 : Nat) : ℝ)))).2.2 = (Θ T - Θ 0) / (2 * π) := by
  have hM : (0 : ℝ) < ((N - 1 : Nat) : ℝ) := by exact_mod_cast (show 0 < N - 1 by omega)
  have hbound : ∀ t, ‖Θ' t‖ ≤ 1 / ρ := by
    intro t
    have d0 : HasDerivAt (fun t => γ t 0) (γ' t 0) t := (hasDerivAt_pi.1 (hγ t)) 0
    have d1 : HasDerivAt (fun t => γ t 1) (γ' t 1) t := (hasDerivAt_pi.1 (hγ t)) 1
    have e0 : γ' t 0 = r' t * cos (Θ t) + r t * (-sin (Θ t) * Θ' t) := by
      have h := (hr t).mul ((hasDerivAt_cos (Θ t)).comp t (hΘ t))
      have hf : (fun t => γ t 0) = r * (cos ∘ Θ) := by funext t; exact hx t
      rw [hf] at d0
      exact d0.unique h
    have e1 : γ' t 1 = r' t * sin (Θ t) + r t * (cos (Θ t) * Θ' t) := by
      have h := (hr t).mul ((hasDerivAt_sin (Θ t)).comp t (hΘ t))
      have hf : (fun t => γ t 1) = r * (sin ∘ Θ) := by funext t; exact hy t
      rw [hf] at d1
      exact d1.unique h
    have hs := hspeed t
    unfold norm3 at hs
    have hsq : γ' t 0 ^ 2 + γ' t 1 ^ 2 + γ' t 2 ^ 2 ≤ 1 := by
      have := (sqrt_le_left (show (0 : ℝ) ≤ 1 by norm_num)).1 hs
      linarith
    have hcs := cos_sq_add_sin_sq (Θ t)
    have h3 : (r t * Θ' t) ^ 2 ≤ 1 := by
      have : γ' t 0 ^ 2 + γ' t 1 ^ 2 = r' t ^ 2 + (r t * Θ' t) ^ 2 := by
        rw [e0, e1]; linear_combination (r' t ^ 2 + (r t * Θ' t) ^ 2) * hcs
      nlinarith [sq_nonneg (r' t), sq_nonneg (γ' t 2)]
    have hrp : 0 < r t := lt_of_lt_of_le hρ (hfar t)
    rw [Real.norm_eq_abs, le_div_iff₀ hρ]
    have h4 : |r t * Θ' t| ≤ 1 := by rw [← sq_le_one_iff_abs_le_one]; exact h3
    rw [abs_mul, abs_of_pos hrp] at h4
    nlinarith [abs_nonneg (Θ' t), hfar t]
  have hmv : ∀ a b : ℝ, |Θ b - Θ a| ≤ 1 / ρ * |b - a| := by
    intro a b
    have := Convex.norm_image_sub_le_of_norm_hasDerivWithin_le (f := Θ) (f' := Θ') (s := Set.univ) (x := a) (y := b)
      (fun x _ => (hΘ x).hasDerivWithinAt) (fun x _ => hbound x) convex_univ (Set.mem_univ _) (Set.mem_univ _)
    simpa [Real.norm_eq_abs] using this
  rw [C91_toroidal_turns (by omega) _ (fun k => Θ (T * k / ((N - 1 : Nat) : ℝ)))]
  · rw [mul_div_assoc, div_self hM.ne']; simp
  · intro k hk
    exact ⟨r (T * k / ((N - 1 : Nat) : ℝ)), lt_of_lt_of_le hρ (hfar _), hx _, hy _⟩
  · intro k hk
    refine lt_of_le_of_lt (hmv _ _) ?_
    have : T * ((k + 1 : Nat) : ℝ) / ((N - 1 : Nat) : ℝ) - T * k / ((N - 1 : Nat) : ℝ) = T / ((N - 1 : Nat) : ℝ) := by
      push_cast; field_simp; ring
    rw [this, abs_of_nonneg (by positivity), one_div, inv_mul_lt_iff₀ hρ]
    linarith

/-! ## The rotational transform -/

theorem abs_cyl {P : V3} (h : sin (1e-16 + arctan2 (P 1) (P 0)) ≠ 0) : |cylSigned P 0| = axisDistance P := by
  change |√ (P 0 ^ 2 + P 1 ^ 2) * jsign (sin (1e-16 + arctan2 (P 1) (P 0)))| = _
  rw [abs_mul, abs_jsign h, mul_one, abs_of_nonneg (sqrt_nonneg _)]
  rfl

theorem jmean_congr {N : Nat} {v w : Nat → ℝ} (h : ∀ k, k < N → v k = w k) : jmean N v = jmean N w := by
  unfold jmean
  rw [Finset.sum_congr rfl fun k hk => h k (Finset.mem_range.1 hk)]

theorem unwrap_congr {N : Nat} {v w : Nat → ℝ} (h : ∀ k, k < N → v k = w k) (k : Nat) (hk : k < N) : unwrap v k = unwrap w k := by
  unfold unwrap
  rw [h k hk, Finset.sum_congr rfl fun i hi => ?_]
  have := Finset.mem_range.1 hi
  rw [h i (by omega), h (i + 1) (by omega)]

/-- The poloidal turns of a trace, in terms of the distances from the axis. -/
theorem iota_m {N : Nat} (hN : 0 < N) (P : Nat → V3) (hoff : ∀ k, k < N → sin (1e-16 + arctan2 (P k 1) (P k 0)) ≠ 0) :
    (iotaOfTrace N P).2.1 = (unwrap (fun k => arctan2 (P k 2 - jmean N fun k => P k 2) (axisDistance (P k) - jmean N fun k => axisDistance (P k))) (N - 1)
      - unwrap (fun k => arctan2 (P k 2 - jmean N fun k => P k 2) (axisDistance (P k) - jmean N fun k => axisDistance (P k))) 0) / (2 * π) := by
  have hm : jmean N (fun k => |cylSigned (P k) 0|) = jmean N fun k => axisDistance (P k) := jmean_congr fun k hk => abs_cyl (hoff k hk)
  have hu : ∀ k, k < N → arctan2 (cylSigned (P k) 2 - jmean N fun k => cylSigned (P k) 2) (|cylSigned (P k) 0| - jmean N fun k => |cylSigned (P k) 0|)
      = arctan2 (P k 2 - jmean N fun k => P k 2) (axisDistance (P k) - jmean N fun k => axisDistance (P k)) := by
    intro k hk
    rw [hm, abs_cyl (hoff k hk)]
    rfl
  rw [← unwrap_congr hu (N - 1) (by omega), ← unwrap_congr hu 0 hN]
  rfl

theorem iota_bound {N : Nat} (P : Nat → V3) {dθ dΦ ι D : ℝ} (hm : |2 * π * (iotaOfTrace N P).2.1 - dθ| ≤ D) (hn : (iotaOfTrace N P).2.2 = dΦ / (2 * π))
    (hne : dΦ ≠ 0) (hι : dθ = ι * dΦ) : |(iotaOfTrace N P).1 - (|ι|)| ≤ D / |dΦ| := by
  have hpi := pi_pos
  have e : (iotaOfTrace N P).1 = |(iotaOfTrace N P).2.1 / (iotaOfTrace N P).2.2| := rfl
  rw [e]
  refine (abs_abs_sub_abs_le_abs_sub _ _).trans ?_
  rw [hn, show (iotaOfTrace N P).2.1 / (dΦ / (2 * π)) - ι = (2 * π * (iotaOfTrace N P).2.1 - dθ) / dΦ by rw [hι]; field_simp, abs_div]
  exact div_le_div_of_nonneg_right hm (abs_nonneg _)

/-- **C91** the rotational transform. Let a field line with rotational transform `ι` be sampled: its toroidal angles are `Φ_k`, its
poloidal angle in straight-field-line coordinates is `θ_k` with `θ_k − θ_0 = ι (Φ_k − Φ_0)`, and `ψ_k` is its geometric poloidal angle in the
`(R, z)` half plane about the mean of the samples. If both geometric angles move by less than half a turn per sample, no sample lies in
the plane where the signed radius vanishes, and the geometric angle advances as far as `θ` up to `D`, then the reported value is `|ι|` up to
`D` over the toroidal angle travelled. -/
theorem C91_iota {N : Nat} (hN : 0 < N) (P : Nat → V3) (Φ θ ψ : Nat → ℝ) {ι D : ℝ}
    (hΦ : ∀ k, k < N → IsPolarAngle (P k 0) (P k 1) (Φ k)) (hΦs : ∀ k, k + 1 < N → |Φ (k + 1) - Φ k| < π)
    (hoff : ∀ k, k < N → sin (1e-16 + arctan2 (P k 1) (P k 0)) ≠ 0)
    (hψ : ∀ k, k < N → IsPolarAngle (axisDistance (P k) - (∑ k ∈ Finset.range N, axisDistance (P k)) / N) (P k 2 - (∑ k ∈ Finset.range N, P k 2) / N) (ψ k))
    (hψs : ∀ k, k + 1 < N → |ψ (k + 1) - ψ k| < π)
    (hD : |(ψ (N - 1) - ψ 0) - (θ (N - 1) - θ 0)| ≤ D) (hline : θ (N - 1) - θ 0 = ι * (Φ (N - 1) - Φ 0)) (hne : Φ (N - 1) ≠ Φ 0) :
    |(iotaOfTrace N P).1 - (|ι|)| ≤ D / |Φ (N - 1) - Φ 0| := by
  have hpi := pi_pos
  refine iota_bound P (dθ := θ (N - 1) - θ 0) ?_ (C91_toroidal_turns hN P Φ hΦ hΦs) (sub_ne_zero.2 hne) hline
  have hm := C91_poloidal_turns hN (fun k => axisDistance (P k)) (fun k => P k 2) _ _ ψ hψ hψs
  rw [iota_m hN P hoff]
  change |2 * π * poloidalUnwrapped N (fun k => axisDistance (P k)) (fun k => P k 2) _ _ - _| ≤ D
  unfold jmean
  rw [hm, mul_div_cancel₀ _ (by positivity)]
  exact hD

/-- **C91** in particular for every cross-section that is star-shaped about the mean of the samples: if the geometric angle is a monotone
function of the straight-field-line angle that gains one turn per turn, the error is at most one over the number of toroidal turns. -/
theorem C91_iota_star {N : Nat} (hN : 0 < N) (P : Nat → V3) (Φ θ : Nat → ℝ) (g : ℝ → ℝ) {ι : ℝ} (hg : Monotone g) (hg1 : ∀ x, g (x + 2 * π) = g x + 2 * π)
    (hΦ : ∀ k, k < N → IsPolarAngle (P k 0) (P k 1) (Φ k)) (hΦs : ∀ k, k + 1 < N → |Φ (k + 1) - Φ k| < π)
    (hoff : ∀ k, k < N → sin (1e-16 + arctan2 (P k 1) (P k 0)) ≠ 0)
    (hψ : ∀ k, k < N → IsPolarAngle (axisDistance (P k) - (∑ k ∈ Finset.range N, axisDistance (P k)) / N) (P k 2 - (∑ k ∈ Finset.range N, P k 2) / N) (g (θ k)))
    (hψs : ∀ k, k + 1 < N → |g (θ (k + 1)) - g (θ k)| < π)
    (hline : θ (N - 1) - θ 0 = ι * (Φ (N - 1) - Φ 0)) (hne : Φ (N - 1) ≠ Φ 0) :
    |(iotaOfTrace N P).1 - (|ι|)| ≤ 1 / |(Φ (N - 1) - Φ 0) / (2 * π)| := by
  have hpi := pi_pos
  have hint : ∀ (n : Int) (x : ℝ), g (x + 2 * π * n) = g x + 2 * π * n := by
    have nat : ∀ (n : Nat) (x : ℝ), g (x + 2 * π * n) = g x + 2 * π * n := by
      intro n x
      induction n with
      | zero => simp
      | succ n ih =>
        push_cast
        rw [show x + 2 * π * (n + 1) = x + 2 * π * n + 2 * π by ring, hg1, ih]; ring
    intro n x
    obtain ⟨k, rfl | rfl⟩ := n.eq_nat_or_neg
    · exact_mod_cast nat k x
    · have := nat k (x + 2 * π * ((-(k : Int) : Int) : ℝ))
      push_cast at this ⊢
      rw [show x + 2 * π * -(k : ℝ) + 2 * π * k = x by ring] at this
      linarith
  have key : ∀ a b : ℝ, |(g b - g a) - (b - a)| ≤ 2 * π := by
    intro a b
    obtain ⟨n, hn⟩ : ∃ n : Int, n = ⌊(b - a) / (2 * π)⌋ := ⟨_, rfl⟩
    have f1 := Int.floor_le ((b - a) / (2 * π))
    have f2 := Int.lt_floor_add_one ((b - a) / (2 * π))
    rw [← hn] at f1 f2
    rw [le_div_iff₀ (by positivity)] at f1
    rw [div_lt_iff₀ (by positivity)] at f2
    have m1 : g (a + 2 * π * n) ≤ g b := hg (by linarith)
    have m2 : g b ≤ g (a + 2 * π * n + 2 * π) := hg (by linarith)
    rw [hg1, hint] at m2
    rw [hint] at m1
    rw [abs_le]
    constructor <;> linarith
  refine (C91_iota hN P Φ θ (fun k => g (θ k)) hΦ hΦs hoff hψ hψs (key _ _) hline hne).trans (le_of_eq ?_)
  rw [abs_div, abs_of_pos (show (0 : ℝ) < 2 * π by positivity), one_div_div]

/-- The point of the torus with major radius `R0` and minor radius `a` at toroidal angle `Φ` and poloidal angle `θ`. -/
noncomputable def torusPoint (R0 a Φ θ : ℝ) : V3 := ![(R0 + a * cos θ) * cos Φ, (R0 + a * cos θ) * sin Φ, a * sin θ]

theorem axisDistance_torus {R0 a : ℝ} (ha : 0 < a) (hR : a < R0) (Φ θ : ℝ) : axisDistance (torusPoint R0 a Φ θ) = R0 + a * cos θ := by
  have h : 0 ≤ R0 + a * cos θ := by nlinarith [neg_one_le_cos θ]
  unfold axisDistance torusPoint
  rw [show (![(R0 + a * cos θ) * cos Φ, (R0 + a * cos θ) * sin Φ, a * sin θ] : V3) 0 = (R0 + a * cos θ) * cos Φ by rfl,
    show (![(R0 + a * cos θ) * cos Φ, (R0 + a * cos θ) * sin Φ, a * sin θ] : V3) 1 = (R0 + a * cos θ) * sin Φ by rfl,
    show ((R0 + a * cos θ) * cos Φ) ^ 2 + ((R0 + a * cos θ) * sin Φ) ^ 2 = (R0 + a * cos θ) ^ 2 by
      linear_combination (R0 + a * cos θ) ^ 2 * cos_sq_add_sin_sq Φ, sqrt_sq h]

/-- **C91** on a torus with circular cross-section: with steps of at most `δ` in the poloidal angle and the mean of the samples within the
fraction `s < cos(δ/2)` of the minor radius from the centre, the reported value is `|ι|` up to `2 arcsin s` over the angle travelled. -/
theorem C91_iota_torus {N : Nat} (hN : 0 < N) {R0 a s δ ι : ℝ} (ha : 0 < a) (hR : a < R0) (Φ θ : Nat → ℝ) (hΦs : ∀ k, k + 1 < N → |Φ (k + 1) - Φ k| < π)
    (hδ0 : 0 ≤ δ) (hδ : δ ≤ π) (hθs : ∀ k, k + 1 < N → |θ (k + 1) - θ k| ≤ δ) (hs0 : 0 ≤ s) (hs : s < cos (δ / 2))
    (hoff : ∀ k, k < N → sin (1e-16 + arctan2 (torusPoint R0 a (Φ k) (θ k) 1) (torusPoint R0 a (Φ k) (θ k) 0)) ≠ 0)
    (hc : ((∑ k ∈ Finset.range N, cos (θ k)) / N) ^ 2 + ((∑ k ∈ Finset.range N, sin (θ k)) / N) ^ 2 ≤ s ^ 2)
    (hline : θ (N - 1) - θ 0 = ι * (Φ (N - 1) - Φ 0)) (hne : Φ (N - 1) ≠ Φ 0) :
    |(iotaOfTrace N (fun k => torusPoint R0 a (Φ k) (θ k))).1 - (|ι|)| ≤ 2 * arcsin s / |Φ (N - 1) - Φ 0| := by
  have hpi := pi_pos
  have hN' : (0 : ℝ) < N := by exact_mod_cast hN
  refine iota_bound _ (dθ := θ (N - 1) - θ 0) ?_ (C91_toroidal_turns hN _ Φ ?_ hΦs) (sub_ne_zero.2 hne) hline
  · rw [iota_m hN _ hoff, mul_div_cancel₀ _ (by positivity)]
    refine turns_dominated hN θ (fun _ => a) _ _ (fun _ _ => ha) hs0 hδ0 hδ hs hθs ?_
    intro k hk
    rw [axisDistance_torus ha hR]
    have e1 : (jmean N fun k => axisDistance (torusPoint R0 a (Φ k) (θ k))) = R0 + a * ((∑ k ∈ Finset.range N, cos (θ k)) / N) := by
      unfold jmean
      rw [Finset.sum_congr rfl fun k _ => axisDistance_torus ha hR (Φ k) (θ k), Finset.sum_add_distrib, ← Finset.mul_sum]
      simp only [Finset.sum_const, Finset.card_range, nsmul_eq_mul]
      field_simp
    have e2 : (jmean N fun k => torusPoint R0 a (Φ k) (θ k) 2) = a * ((∑ k ∈ Finset.range N, sin (θ k)) / N) := by
      unfold jmean
      change (∑ k ∈ Finset.range N, a * sin (θ k)) / N = _
      rw [← Finset.mul_sum]; ring
    rw [e1, e2]
    change (R0 + a * cos (θ k) - (R0 + a * ((∑ k ∈ Finset.range N, cos (θ k)) / N)) - a * cos (θ k)) ^ 2
      + (a * sin (θ k) - a * ((∑ k ∈ Finset.range N, sin (θ k)) / N) - a * sin (θ k)) ^ 2 ≤ (s * a) ^ 2
    nlinarith [mul_le_mul_of_nonneg_left hc (sq_nonneg a)]
  · intro k hk
    refine ⟨R0 + a * cos (θ k), by nlinarith [neg_one_le_cos (θ k)], rfl, rfl⟩

theorem sum_cos_eq (θ α : ℝ) (n : Nat) : 2 * sin (α / 2) * ∑ k ∈ Finset.range n, cos (θ + k * α) = sin (θ + n * α - α / 2) - sin (θ - α / 2) := by
  induction n with
  | zero => simp
  | succ n ih =>
    rw [Finset.sum_range_succ, mul_add, ih]
    push_cast
    rw [show θ + (n + 1) * α - α / 2 = (θ + n * α) + α / 2 by ring, sin_add, sin_sub (θ + n * α)]
    ring

theorem sum_sin_eq (θ α : ℝ) (n : Nat) : 2 * sin (α / 2) * ∑ k ∈ Finset.range n, sin (θ + k * α) = cos (θ - α / 2) - cos (θ + n * α - α / 2) := by
  induction n with
  | zero => simp
  | succ n ih =>
    rw [Finset.sum_range_succ, mul_add, ih]
    push_cast
    rw [show θ + (n + 1) * α - α / 2 = (θ + n * α) + α / 2 by ring, cos_add, cos_sub (θ + n * α)]
    ring

/-- The mean of equally spaced points of the unit circle. -/
theorem mean_circle (N : Nat) (θ α : ℝ) :
    sin (α / 2) ^ 2 * ((∑ k ∈ Finset.range N, cos (θ + k * α)) ^ 2 + (∑ k ∈ Finset.range N, sin (θ + k * α)) ^ 2) ≤ 1 := by
  obtain ⟨A, hA⟩ : ∃ A, A = θ + N * α - α / 2 := ⟨_, rfl⟩
  obtain ⟨B, hB⟩ : ∃ B, B = θ - α / 2 := ⟨_, rfl⟩
  have h1 := sum_cos_eq θ α N
  have h2 := sum_sin_eq θ α N
  rw [← hA, ← hB] at h1 h2
  have e : 4 * (sin (α / 2) ^ 2 * ((∑ k ∈ Finset.range N, cos (θ + k * α)) ^ 2 + (∑ k ∈ Finset.range N, sin (θ + k * α)) ^ 2))
      = (sin A - sin B) ^ 2 + (cos B - cos A) ^ 2 := by rw [← h1, ← h2]; ring
  have : (sin A - sin B) ^ 2 + (cos B - cos A) ^ 2 = 2 - 2 * cos (A - B) := by
    rw [cos_sub]; linear_combination cos_sq_add_sin_sq A + cos_sq_add_sin_sq B
  linarith [neg_one_le_cos (A - B)]

/-- **C91** for equally spaced samples, `α` in the poloidal and `β` in the toroidal angle, nothing more has to be assumed than `N |sin α| > 2`. -/
theorem C91_iota_uniform {N : Nat} {R0 a Φ θ α β : ℝ} (ha : 0 < a) (hR : a < R0) (hα : |α| < π) (hβ0 : β ≠ 0) (hβ : |β| < π) (hN : 2 < N * |sin α|)
    (hN2 : 2 ≤ N)
    (hoff : ∀ k : Nat, k < N → sin (1e-16 + arctan2 (torusPoint R0 a (Φ + k * β) (θ + k * α) 1) (torusPoint R0 a (Φ + k * β) (θ + k * α) 0)) ≠ 0) :
    |(iotaOfTrace N (fun k => torusPoint R0 a (Φ + k * β) (θ + k * α))).1 - (|α / β|)|
      ≤ 2 * arcsin (1 / (N * |sin (α / 2)|)) / (((N - 1 : Nat) : ℝ) * |β|) := by
  have hpi := pi_pos
  have hN' : (0 : ℝ) < N := by exact_mod_cast (show 0 < N by omega)
  have hM : (0 : ℝ) < ((N - 1 : Nat) : ℝ) := by exact_mod_cast (show 0 < N - 1 by omega)
  have hα' := abs_lt.1 hα
  have hcos : 0 < cos (|α| / 2) := cos_pos_of_mem_Ioo ⟨by linarith [abs_nonneg α], by linarith⟩
  have hce : cos (|α| / 2) = cos (α / 2) := by
    rcases abs_choice α with h | h <;> rw [h]
    rw [neg_div, cos_neg]
  have hsin2 : sin α = 2 * sin (α / 2) * cos (α / 2) := by rw [← sin_two_mul]; congr 1; ring
  have hsn : 0 < |sin (α / 2)| := by
    rw [abs_pos]; intro h; rw [hsin2, h] at hN; simp at hN; linarith
  have hsq : 0 < sin (α / 2) ^ 2 := by rw [← sq_abs]; positivity
  have hprod : 1 < N * |sin (α / 2)| * cos (|α| / 2) := by
    rw [hsin2, abs_mul, abs_mul, ← hce, abs_of_pos hcos, abs_of_pos (show (0 : ℝ) < 2 by norm_num)] at hN
    linarith
  have hs : 1 / (N * |sin (α / 2)|) < cos (|α| / 2) := by
    rw [div_lt_iff₀ (by positivity)]; linarith
  have := C91_iota_torus (N := N) (R0 := R0) (a := a) (s := 1 / (N * |sin (α / 2)|)) (δ := |α|) (ι := α / β) (by omega) ha hR (fun k => Φ + k * β) (fun k => θ + k * α)
    (by intro k _; push_cast; rw [show Φ + (k + 1) * β - (Φ + k * β) = β by ring]; exact hβ) (abs_nonneg _) hα.le
    (by intro k _; push_cast; rw [show θ + (k + 1) * α - (θ + k * α) = α by ring]) (by positivity) hs hoff
    (by
      have := mean_circle N θ α
      rw [div_pow, div_pow, ← add_div, div_pow, one_pow, mul_pow, sq_abs, div_le_div_iff₀ (by positivity) (by positivity)]
      nlinarith [sq_nonneg (N : ℝ)])
    (by push_cast; field_simp; ring) (by
      intro h
      have : ((N - 1 : Nat) : ℝ) * β = 0 := by push_cast at h ⊢; linarith
      rcases mul_eq_zero.1 this with h | h
      · exact hM.ne' h
      · exact hβ0 h)
  refine this.trans (le_of_eq ?_)
  congr 1
  rw [← abs_of_pos hM, ← abs_mul, abs_of_pos hM]
  congr 1
  push_cast
  ring

/-- **C91** and the reported value converges to `|ι| = |α/β|` as the trace gets longer. -/
theorem C91_iota_limit {R0 a Φ θ α β : ℝ} (ha : 0 < a) (hR : a < R0) (hα0 : α ≠ 0) (hα : |α| < π) (hβ0 : β ≠ 0) (hβ : |β| < π)
    (hoff : ∀ k : Nat, sin (1e-16 + arctan2 (torusPoint R0 a (Φ + k * β) (θ + k * α) 1) (torusPoint R0 a (Φ + k * β) (θ + k * α) 0)) ≠ 0) :
    Filter.Tendsto (fun N => (iotaOfTrace N (fun k => torusPoint R0 a (Φ + k * β) (θ + k * α))).1) Filter.atTop (nhds |α / β|) := by
  have hpi := pi_pos
  have hsin : 0 < |sin α| := by
    obtain ⟨l, u⟩ := abs_lt.1 hα
    rw [abs_pos]
    rcases lt_or_gt_of_ne hα0 with h | h
    · exact (sin_neg_of_neg_of_neg_pi_lt h l).ne
    · exact (sin_pos_of_pos_of_lt_pi h u).ne'
  rw [tendsto_iff_norm_sub_tendsto_zero]
  have hub : Filter.Tendsto (fun N : Nat => π / |β| * (1 / ((N - 1 : Nat) : ℝ))) Filter.atTop (nhds 0) := by
    have h1 : Filter.Tendsto (fun N : Nat => (1 : ℝ) / ((N - 1 : Nat) : ℝ)) Filter.atTop (nhds 0) :=
      tendsto_const_nhds.div_atTop (tendsto_natCast_atTop_atTop.comp (Filter.tendsto_sub_atTop_nat 1))
    simpa using h1.const_mul (π / |β|)
  refine tendsto_of_tendsto_of_tendsto_of_le_of_le' tendsto_const_nhds hub (Filter.Eventually.of_forall fun N => norm_nonneg _) ?_
  obtain ⟨N0, hN0⟩ := exists_nat_gt (2 / |sin α|)
  filter_upwards [Filter.eventually_ge_atTop (max N0 2)] with N hN
  have hN1 : N0 ≤ N := le_trans (le_max_left _ _) hN
  have hN2 : 2 ≤ N := le_trans (le_max_right _ _) hN
  have hM : (0 : ℝ) < ((N - 1 : Nat) : ℝ) := by exact_mod_cast (show 0 < N - 1 by omega)
  have hb : 0 < |β| := abs_pos.2 hβ0
  have h2 : 2 < N * |sin α| := by
    rw [div_lt_iff₀ hsin] at hN0
    have : (N0 : ℝ) ≤ N := by exact_mod_cast hN1
    nlinarith
  refine (C91_iota_uniform ha hR hα hβ0 hβ h2 hN2 (fun k _ => hoff k)).trans ?_
  rw [show π / |β| * (1 / ((N - 1 : Nat) : ℝ)) = π / (((N - 1 : Nat) : ℝ) * |β|) by field_simp]
  exact div_le_div_of_nonneg_right (by linarith [arcsin_le_pi_div_two (1 / (N * |sin (α / 2)|))]) (by positivity)

/-! ## Crossings and the signed radius -/

/-- **C91** the event function of `get_crossings` at a point off the axis: it vanishes exactly on the vertical plane through the axis at the
angle `2π φ_target` — on both half planes. -/
theorem C91_crossing_plane (φt : ℝ) (x : V3) (hx : axisDistance x ≠ 0) :
    crossingCond φt x = (x 0 * sin (2 * π * φt) - x 1 * cos (2 * π * φt)) / axisDistance x
      ∧ (crossingCond φt x = 0 ↔ ∃ ρ : ℝ, x 0 = ρ * cos (2 * π * φt) ∧ x 1 = ρ * sin (2 * π * φt)) := by
  have hpi := pi_ne_zero
  obtain ⟨h0, h1⟩ := polar_arctan2 (x 0) (x 1)
  change x 0 = axisDistance x * _ at h0
  change x 1 = axisDistance x * _ at h1
  have e : crossingCond φt x = (x 0 * sin (2 * π * φt) - x 1 * cos (2 * π * φt)) / axisDistance x := by
    change sin (2 * π * ((arctan2 (x 1) (x 0) / π + 1) / 2 - φt)) = _
    rw [show 2 * π * ((arctan2 (x 1) (x 0) / π + 1) / 2 - φt) = (arctan2 (x 1) (x 0) - 2 * π * φt) + π by field_simp; ring, sin_add_pi, sin_sub]
    rw [eq_div_iff hx]
    have h0' := h0
    have h1' := h1
    linear_combination (-sin (2 * π * φt)) * h0 + cos (2 * π * φt) * h1
  refine ⟨e, ?_⟩
  rw [e, div_eq_zero_iff, or_iff_left hx]
  have hcs := cos_sq_add_sin_sq (2 * π * φt)
  constructor
  · intro h
    refine ⟨x 0 * cos (2 * π * φt) + x 1 * sin (2 * π * φt), ?_, ?_⟩
    · linear_combination (-x 0) * hcs + sin (2 * π * φt) * h
    · linear_combination (-x 1) * hcs - cos (2 * π * φt) * h
  · rintro ⟨ρ, h2, h3⟩
    rw [h2, h3]; ring

/-- **C91** on that plane the signed radius is the coordinate along the horizontal line of the plane, up to one fixed sign (that of
`sin(2πφ_target + 1e-16)`): the two half planes get opposite signs. -/
theorem C91_signed_radius (φt ρ : ℝ) (x : V3) (hρ : ρ ≠ 0) (h0 : x 0 = ρ * cos (2 * π * φt)) (h1 : x 1 = ρ * sin (2 * π * φt)) :
    cylSigned x 0 = ρ * jsign (sin (1e-16 + 2 * π * φt)) ∧ axisDistance x = |ρ| ∧ cylSigned x 2 = x 2 := by
  have hcs := cos_sq_add_sin_sq (2 * π * φt)
  have hR : √ (x 0 ^ 2 + x 1 ^ 2) = |ρ| := by
    rw [h0, h1, show (ρ * cos (2 * π * φt)) ^ 2 + (ρ * sin (2 * π * φt)) ^ 2 = ρ ^ 2 by linear_combination ρ ^ 2 * hcs, sqrt_sq_eq_abs]
  refine ⟨?_, hR, rfl⟩
  change √ (x 0 ^ 2 + x 1 ^ 2) * jsign (sin (1e-16 + arctan2 (x 1) (x 0))) = _
  rw [hR]
  have hneg : ∀ y : ℝ, jsign (-y) = -jsign y := by
    intro y
    unfold jsign
    rcases lt_trichotomy y 0 with h | h | h
    · rw [if_pos (by linarith), if_neg (by linarith), if_pos h]; ring
    · rw [h]; simp
    · rw [if_neg (by linarith), if_pos (by linarith), if_pos h]
  rcases lt_or_gt_of_ne hρ with hn | hp
  · obtain ⟨j, hj⟩ := arctan2_of_polar (ρ := -ρ) (Θ := 2 * π * φt + π) (x := x 0) (y := x 1) (by linarith) (by rw [h0, cos_add_pi]; ring) (by rw [h1, sin_add_pi]; ring)
    rw [hj, show (1e-16 : ℝ) + (2 * π * φt + π + 2 * π * j) = (1e-16 + 2 * π * φt) + π + j * (2 * π) by ring, sin_add_int_mul_two_pi, sin_add_pi, hneg,
      abs_of_neg hn]
    ring
  · obtain ⟨j, hj⟩ := arctan2_of_polar hp h0 h1
    rw [hj, show (1e-16 : ℝ) + (2 * π * φt + 2 * π * j) = (1e-16 + 2 * π * φt) + j * (2 * π) by ring, sin_add_int_mul_two_pi, abs_of_pos hp]

/-! ## A helical axis -/

/-- The points of the helical domain are within `ε r` of the axis. -/
theorem helix_offset (ε h κ α nfp : ℝ) (x : V3) :
    (helicalMap ε h κ α nfp x 0 - helixX h κ α nfp (x 2) 0) ^ 2 + (helicalMap ε h κ α nfp x 1 - helixX h κ α nfp (x 2) 1) ^ 2
      + (helicalMap ε h κ α nfp x 2 - helixX h κ α nfp (x 2) 2) ^ 2 ≤ (ε * x 0) ^ 2 := by
  obtain ⟨ν, hν⟩ : ∃ ν, ν = helixNu1 h κ α nfp (x 2) := ⟨_, rfl⟩
  obtain ⟨τ, hτ⟩ : ∃ τ, τ = helixTau h κ α nfp (x 2) := ⟨_, rfl⟩
  have unit : ∀ v : V3, ((norm3 v)⁻¹ • v) 0 ^ 2 + ((norm3 v)⁻¹ • v) 1 ^ 2 + ((norm3 v)⁻¹ • v) 2 ^ 2 ≤ 1 := by
    intro v
    have hsq : norm3 v ^ 2 = v 0 ^ 2 + v 1 ^ 2 + v 2 ^ 2 := sq_sqrt (by positivity)
    simp only [Pi.smul_apply, smul_eq_mul, mul_pow, ← mul_add, ← hsq]
    by_cases h0 : norm3 v = 0
    · rw [h0]; norm_num
    · rw [← mul_pow, inv_mul_cancel₀ h0]; norm_num
  have hτ1 : τ 0 ^ 2 + τ 1 ^ 2 + τ 2 ^ 2 ≤ 1 := by rw [hτ]; exact unit _
  have hν1 : ν 0 ^ 2 + ν 1 ^ 2 + ν 2 ^ 2 ≤ 1 := by rw [hν]; exact unit _
  have hc : ∀ j, helicalMap ε h κ α nfp x j - helixX h κ α nfp (x 2) j
      = ε * x 0 * (cos (2 * π * x 1) * ν j + sin (2 * π * x 1) * crossProduct τ ν j) := by
    intro j
    rw [hν, hτ]
    unfold helicalMap helixNu2
    simp only [Pi.add_apply, Pi.smul_apply, smul_eq_mul]
    ring
  rw [hc, hc, hc]
  simp only [cross_apply, Matrix.cons_val]
  obtain ⟨c, hcc⟩ : ∃ c, c = cos (2 * π * x 1) := ⟨_, rfl⟩
  obtain ⟨s, hss⟩ : ∃ s, s = sin (2 * π * x 1) := ⟨_, rfl⟩
  have hcs : c ^ 2 + s ^ 2 = 1 := by rw [hcc, hss]; exact cos_sq_add_sin_sq _
  rw [← hcc, ← hss]
  have lag : (τ 1 * ν 2 - τ 2 * ν 1) ^ 2 + (τ 2 * ν 0 - τ 0 * ν 2) ^ 2 + (τ 0 * ν 1 - τ 1 * ν 0) ^ 2
      = (τ 0 ^ 2 + τ 1 ^ 2 + τ 2 ^ 2) * (ν 0 ^ 2 + ν 1 ^ 2 + ν 2 ^ 2) - (τ 0 * ν 0 + τ 1 * ν 1 + τ 2 * ν 2) ^ 2 := by ring
  have hcr : (τ 1 * ν 2 - τ 2 * ν 1) ^ 2 + (τ 2 * ν 0 - τ 0 * ν 2) ^ 2 + (τ 0 * ν 1 - τ 1 * ν 0) ^ 2 ≤ 1 := by
    rw [lag]
    have : (τ 0 ^ 2 + τ 1 ^ 2 + τ 2 ^ 2) * (ν 0 ^ 2 + ν 1 ^ 2 + ν 2 ^ 2) ≤ 1 * 1 :=
      mul_le_mul hτ1 hν1 (by positivity) (by norm_num)
    nlinarith [sq_nonneg (τ 0 * ν 0 + τ 1 * ν 1 + τ 2 * ν 2)]
  have main : (ε * x 0 * (c * ν 0 + s * (τ 1 * ν 2 - τ 2 * ν 1))) ^ 2 + (ε * x 0 * (c * ν 1 + s * (τ 2 * ν 0 - τ 0 * ν 2))) ^ 2
      + (ε * x 0 * (c * ν 2 + s * (τ 0 * ν 1 - τ 1 * ν 0))) ^ 2
      = (ε * x 0) ^ 2 * (c ^ 2 * (ν 0 ^ 2 + ν 1 ^ 2 + ν 2 ^ 2)
        + s ^ 2 * ((τ 1 * ν 2 - τ 2 * ν 1) ^ 2 + (τ 2 * ν 0 - τ 0 * ν 2) ^ 2 + (τ 0 * ν 1 - τ 1 * ν 0) ^ 2)) := by ring
  rw [main]
  have : c ^ 2 * (ν 0 ^ 2 + ν 1 ^ 2 + ν 2 ^ 2)
        + s ^ 2 * ((τ 1 * ν 2 - τ 2 * ν 1) ^ 2 + (τ 2 * ν 0 - τ 0 * ν 2) ^ 2 + (τ 0 * ν 1 - τ 1 * ν 0) ^ 2) ≤ 1 := by
    nlinarith [mul_le_mul_of_nonneg_left hν1 (sq_nonneg c), mul_le_mul_of_nonneg_left hcr (sq_nonneg s)]
  nlinarith [sq_nonneg (ε * x 0)]

/-- The distance from the axis changes by at most the horizontal distance. -/
theorem axisDistance_sub (p q : V3) : (axisDistance p - axisDistance q) ^ 2 ≤ (p 0 - q 0) ^ 2 + (p 1 - q 1) ^ 2 := by
  have hn : ∀ v : V3, axisDistance v = ‖(⟨v 0, v 1⟩ : ℂ)‖ := by
    intro v
    rw [Complex.norm_def, Complex.normSq_mk]; unfold axisDistance; congr 1; ring
  have h := abs_norm_sub_norm_le (⟨p 0, p 1⟩ : ℂ) ⟨q 0, q 1⟩
  rw [hn, hn, ← sq_abs]
  have e : ‖(⟨p 0, p 1⟩ : ℂ) - ⟨q 0, q 1⟩‖ ^ 2 = (p 0 - q 0) ^ 2 + (p 1 - q 1) ^ 2 := by
    rw [Complex.sq_norm, Complex.normSq_apply]; simp; ring
  rw [← e]
  exact pow_le_pow_left₀ (abs_nonneg _) h 2

/-- **C91 (finding)** for the helical domain the reported rotational transform does not see the field line: for any trace near enough to
the helical axis (`2ερ < κh cos(π nfp σ)`), whatever its poloidal angles `t_k` do, the number of poloidal turns is that of the axis about the
mean point, `nfp` per toroidal turn. (`ζ0` is the first `ζ` and `σ` the step; the trace covers an integer number of field periods.) -/
theorem C91_helical_axis_counted {N : Nat} (hN : 0 < N) {ε h κ α nfp ζ0 σ ρ : ℝ} (r t : Nat → ℝ) (hA0 : 0 < κ * h) (hA1 : κ * h < 1) (hε : 0 ≤ ε)
    (hr : ∀ k, k < N → 0 ≤ r k ∧ r k ≤ ρ) (hclosed : ∃ j : Int, N * (nfp * σ) = j) (hstep : sin (π * (nfp * σ)) ≠ 0) (hσ : |nfp * σ| ≤ 1 / 2) (hσ' : |σ| ≤ 1 / 2)
    (hsmall : 2 * (ε * ρ) < κ * h * cos (π * (nfp * σ))) (hsmall' : ε * ρ < (1 - κ * h) * cos (π * σ))
    (hoff : ∀ k : Nat, k < N → sin (1e-16 + arctan2 (helicalMap ε h κ α nfp ![r k, t k, ζ0 + k * σ] 1) (helicalMap ε h κ α nfp ![r k, t k, ζ0 + k * σ] 0)) ≠ 0) :
    |(iotaOfTrace N (fun k => helicalMap ε h κ α nfp ![r k, t k, ζ0 + k * σ])).2.1 - nfp * (σ * ((N - 1 : Nat) : ℝ))| ≤ 1 / 2
      ∧ |(iotaOfTrace N (fun k => helicalMap ε h κ α nfp ![r k, t k, ζ0 + k * σ])).2.2 + σ * ((N - 1 : Nat) : ℝ)| ≤ 1 / 2 := by
  have hpi := pi_pos
  have hN' : (0 : ℝ) < N := by exact_mod_cast hN
  obtain ⟨A, hA⟩ : ∃ A, A = κ * h := ⟨_, rfl⟩
  rw [← hA] at hA0 hA1 hsmall hsmall'
  obtain ⟨P, hP⟩ : ∃ P : Nat → V3, P = fun k => helicalMap ε h κ α nfp ![r k, t k, ζ0 + k * σ] := ⟨_, rfl⟩
  obtain ⟨η, hη⟩ : ∃ η : Nat → ℝ, η = fun k : Nat => (2 * π * nfp * ζ0 + α) + k * (2 * π * (nfp * σ)) := ⟨_, rfl⟩
  have hρ : 0 ≤ ρ := (hr 0 hN).1.trans (hr 0 hN).2
  have hPk : ∀ k : Nat, helicalMap ε h κ α nfp ![r k, t k, ζ0 + k * σ] = P k := by intro k; rw [hP]
  simp only [hPk] at hoff
  rw [← hP]
  -- the axis
  have hX0 : ∀ k : Nat, helixX h κ α nfp (ζ0 + k * σ) 0 = (1 + A * cos (η k)) * cos (π / 2 - 2 * π * (ζ0 + k * σ)) := by
    intro k
    rw [cos_pi_div_two_sub, hA, hη]
    change (1 + κ * h * cos (2 * π * nfp * (ζ0 + k * σ) + α)) * sin (2 * π * (ζ0 + k * σ)) = _
    rw [show 2 * π * nfp * (ζ0 + k * σ) + α = (2 * π * nfp * ζ0 + α) + k * (2 * π * (nfp * σ)) by ring]
  have hX1 : ∀ k : Nat, helixX h κ α nfp (ζ0 + k * σ) 1 = (1 + A * cos (η k)) * sin (π / 2 - 2 * π * (ζ0 + k * σ)) := by
    intro k
    rw [sin_pi_div_two_sub, hA, hη]
    change (1 + κ * h * cos (2 * π * nfp * (ζ0 + k * σ) + α)) * cos (2 * π * (ζ0 + k * σ)) = _
    rw [show 2 * π * nfp * (ζ0 + k * σ) + α = (2 * π * nfp * ζ0 + α) + k * (2 * π * (nfp * σ)) by ring]
  have hX2 : ∀ k : Nat, helixX h κ α nfp (ζ0 + k * σ) 2 = A * sin (η k) := by
    intro k
    rw [hA, hη]
    change κ * h * sin (2 * π * nfp * (ζ0 + k * σ) + α) = _
    rw [show 2 * π * nfp * (ζ0 + k * σ) + α = (2 * π * nfp * ζ0 + α) + k * (2 * π * (nfp * σ)) by ring]
  have hpos : ∀ k, 1 - A ≤ 1 + A * cos (η k) := by intro k; nlinarith [neg_one_le_cos (η k)]
  have hXd : ∀ k : Nat, axisDistance (helixX h κ α nfp (ζ0 + k * σ)) = 1 + A * cos (η k) := by
    intro k
    unfold axisDistance
    rw [hX0, hX1, show ((1 + A * cos (η k)) * cos (π / 2 - 2 * π * (ζ0 + k * σ))) ^ 2 + ((1 + A * cos (η k)) * sin (π / 2 - 2 * π * (ζ0 + k * σ))) ^ 2
      = (1 + A * cos (η k)) ^ 2 by linear_combination (1 + A * cos (η k)) ^ 2 * cos_sq_add_sin_sq (π / 2 - 2 * π * (ζ0 + k * σ))]
    exact sqrt_sq (by linarith [hpos k])
  have hoffs : ∀ k : Nat, k < N → (P k 0 - helixX h κ α nfp (ζ0 + k * σ) 0) ^ 2 + (P k 1 - helixX h κ α nfp (ζ0 + k * σ) 1) ^ 2
      + (P k 2 - helixX h κ α nfp (ζ0 + k * σ) 2) ^ 2 ≤ (ε * ρ) ^ 2 := by
    intro k hk
    have h1 := helix_offset ε h κ α nfp ![r k, t k, ζ0 + k * σ]
    rw [hPk] at h1
    refine h1.trans ?_
    change (ε * r k) ^ 2 ≤ _
    exact pow_le_pow_left₀ (mul_nonneg hε (hr k hk).1) (mul_le_mul_of_nonneg_left (hr k hk).2 hε) 2
  constructor
  · -- poloidal turns
    obtain ⟨w, hw⟩ : ∃ w : Nat → ℂ, w = fun k => ⟨axisDistance (P k) - (1 + A * cos (η k)), P k 2 - A * sin (η k)⟩ := ⟨_, rfl⟩
    have hwn : ∀ k, k < N → ‖w k‖ ≤ ε * ρ := by
      intro k hk
      rw [← sq_le_sq₀ (norm_nonneg _) (mul_nonneg hε hρ), Complex.sq_norm, hw, Complex.normSq_apply]
      have h1 := hoffs k hk
      have h2 := axisDistance_sub (P k) (helixX h κ α nfp (ζ0 + k * σ))
      rw [hXd] at h2
      rw [hX2] at h1
      change (axisDistance (P k) - (1 + A * cos (η k))) * (axisDistance (P k) - (1 + A * cos (η k))) + (P k 2 - A * sin (η k)) * (P k 2 - A * sin (η k)) ≤ _
      linarith
    obtain ⟨μ, hμ⟩ : ∃ μ : ℂ, μ = (∑ k ∈ Finset.range N, w k) / N := ⟨_, rfl⟩
    have hμn : ‖μ‖ ≤ ε * ρ := by
      rw [hμ, norm_div, Complex.norm_natCast, div_le_iff₀ hN']
      refine (norm_sum_le _ _).trans ((Finset.sum_le_sum fun k hk => hwn k (Finset.mem_range.1 hk)).trans ?_)
      simp [mul_comm]
    obtain ⟨j, hj⟩ := hclosed
    have hmul : (N : ℝ) * (2 * π * (nfp * σ)) = j * (2 * π) := by rw [← hj]; ring
    have hst : sin (2 * π * (nfp * σ) / 2) ≠ 0 := by rw [show 2 * π * (nfp * σ) / 2 = π * (nfp * σ) by ring]; exact hstep
    have hcos0 : ∑ k ∈ Finset.range N, cos (η k) = 0 := by
      have h1 := sum_cos_eq (2 * π * nfp * ζ0 + α) (2 * π * (nfp * σ)) N
      rw [hmul, show 2 * π * nfp * ζ0 + α + j * (2 * π) - 2 * π * (nfp * σ) / 2 = (2 * π * nfp * ζ0 + α - 2 * π * (nfp * σ) / 2) + j * (2 * π) by ring, sin_add_int_mul_two_pi, sub_self] at h1
      rw [hη]
      exact (mul_eq_zero.1 h1).resolve_left (mul_ne_zero two_ne_zero hst)
    have hsin0 : ∑ k ∈ Finset.range N, sin (η k) = 0 := by
      have h1 := sum_sin_eq (2 * π * nfp * ζ0 + α) (2 * π * (nfp * σ)) N
      rw [hmul, show 2 * π * nfp * ζ0 + α + j * (2 * π) - 2 * π * (nfp * σ) / 2 = (2 * π * nfp * ζ0 + α - 2 * π * (nfp * σ) / 2) + j * (2 * π) by ring, cos_add_int_mul_two_pi, sub_self] at h1
      rw [hη]
      exact (mul_eq_zero.1 h1).resolve_left (mul_ne_zero two_ne_zero hst)
    have hR : (jmean N fun k => axisDistance (P k)) = 1 + μ.re := by
      have e : μ.re = (∑ k ∈ Finset.range N, (axisDistance (P k) - (1 + A * cos (η k)))) / N := by
        rw [hμ, Complex.div_natCast_re, Complex.re_sum, hw]
      rw [e, Finset.sum_sub_distrib, Finset.sum_add_distrib, ← Finset.mul_sum, hcos0]
      unfold jmean
      simp only [Finset.sum_const, Finset.card_range, nsmul_eq_mul]
      field_simp
      ring
    have hZ : (jmean N fun k => P k 2) = μ.im := by
      rw [hμ, Complex.div_natCast_im, Complex.im_sum, hw]
      change _ = (∑ k ∈ Finset.range N, (P k 2 - A * sin (η k))) / N
      rw [Finset.sum_sub_distrib, ← Finset.mul_sum, hsin0]
      unfold jmean
      simp
    rw [iota_m hN P hoff, hR, hZ]
    have hcc : cos (π * (nfp * σ)) = cos (2 * π * |nfp * σ| / 2) := by
      rw [show 2 * π * |nfp * σ| / 2 = |π * (nfp * σ)| by rw [abs_mul π, abs_of_pos hpi]; ring, cos_abs]
    have hdom := turns_dominated hN η (fun _ => A) (fun k => axisDistance (P k) - (1 + μ.re)) (fun k => P k 2 - μ.im) (s := 2 * (ε * ρ) / A) (δ := 2 * π * |nfp * σ|)
      (fun _ _ => hA0) (by positivity) (by positivity) (by nlinarith) (by rw [div_lt_iff₀ hA0, ← hcc]; linarith)
      (by
        intro k _
        rw [hη]
        push_cast
        rw [show 2 * π * nfp * ζ0 + α + (k + 1) * (2 * π * (nfp * σ)) - (2 * π * nfp * ζ0 + α + k * (2 * π * (nfp * σ))) = (2 * π) * (nfp * σ) by ring, abs_mul, abs_of_pos (show 0 < 2 * π by positivity)])
      (by
        intro k hk
        rw [div_mul_cancel₀ _ hA0.ne']
        have h1 : ‖w k - μ‖ ≤ 2 * (ε * ρ) := (norm_sub_le _ _).trans (by linarith [hwn k hk])
        rw [← sq_le_sq₀ (norm_nonneg _) (by positivity), Complex.sq_norm, Complex.normSq_apply] at h1
        have e1 : (w k - μ).re = axisDistance (P k) - (1 + μ.re) - A * cos (η k) := by rw [Complex.sub_re, hw]; ring
        have e2 : (w k - μ).im = P k 2 - μ.im - A * sin (η k) := by rw [Complex.sub_im, hw]; ring
        rw [e1, e2] at h1
        linarith)
    have he : η (N - 1) - η 0 = 2 * π * (nfp * (σ * ((N - 1 : Nat) : ℝ))) := by rw [hη]; push_cast; ring
    rw [he] at hdom
    have harc := arcsin_le_pi_div_two (2 * (ε * ρ) / A)
    generalize unwrap (fun k => arctan2 (P k 2 - μ.im) (axisDistance (P k) - (1 + μ.re))) (N - 1)
      - unwrap (fun k => arctan2 (P k 2 - μ.im) (axisDistance (P k) - (1 + μ.re))) 0 = U at hdom ⊢
    rw [show U / (2 * π) - nfp * (σ * ((N - 1 : Nat) : ℝ)) = (U - 2 * π * (nfp * (σ * ((N - 1 : Nat) : ℝ)))) / (2 * π) by field_simp, abs_div,
      abs_of_pos (show 0 < 2 * π by positivity), div_le_iff₀ (by positivity)]
    linarith
  · -- toroidal turns
    have hcc : cos (π * σ) = cos (2 * π * |σ| / 2) := by
      rw [show 2 * π * |σ| / 2 = |π * σ| by rw [abs_mul, abs_of_pos hpi]; ring, cos_abs]
    have h1A : 0 < 1 - A := by linarith
    have hdom := turns_dominated hN (fun k => π / 2 - 2 * π * (ζ0 + k * σ)) (fun k => 1 + A * cos (η k)) (fun k => P k 0) (fun k => P k 1) (s := ε * ρ / (1 - A)) (δ := 2 * π * |σ|)
      (fun k _ => by linarith [hpos k]) (by positivity) (by positivity) (by nlinarith) (by rw [div_lt_iff₀ h1A, ← hcc]; linarith)
      (by
        intro k _
        push_cast
        rw [show π / 2 - 2 * π * (ζ0 + (k + 1) * σ) - (π / 2 - 2 * π * (ζ0 + k * σ)) = -((2 * π) * σ) by ring, abs_neg, abs_mul, abs_of_pos (show 0 < 2 * π by positivity)])
      (by
        intro k hk
        have h1 := hoffs k hk
        rw [hX0, hX1] at h1
        have h2 : ε * ρ ≤ ε * ρ / (1 - A) * (1 + A * cos (η k)) := by
          rw [div_mul_eq_mul_div, le_div_iff₀ h1A]
          exact mul_le_mul_of_nonneg_left (hpos k) (mul_nonneg hε hρ)
        have h3 := pow_le_pow_left₀ (mul_nonneg hε hρ) h2 2
        linarith [sq_nonneg (P k 2 - helixX h κ α nfp (ζ0 + k * σ) 2)])
    have he : (π / 2 - 2 * π * (ζ0 + ((N - 1 : Nat) : ℝ) * σ)) - (π / 2 - 2 * π * (ζ0 + ((0 : Nat) : ℝ) * σ)) = -(2 * π * (σ * ((N - 1 : Nat) : ℝ))) := by push_cast; ring
    rw [he] at hdom
    have harc := arcsin_le_pi_div_two (ε * ρ / (1 - A))
    change |(unwrap (fun k => arctan2 (P k 1) (P k 0)) (N - 1) - unwrap (fun k => arctan2 (P k 1) (P k 0)) 0) / (2 * π) + _| ≤ _
    generalize unwrap (fun k => arctan2 (P k 1) (P k 0)) (N - 1) - unwrap (fun k => arctan2 (P k 1) (P k 0)) 0 = U at hdom ⊢
    rw [show U / (2 * π) + σ * ((N - 1 : Nat) : ℝ) = (U - -(2 * π * (σ * ((N - 1 : Nat) : ℝ)))) / (2 * π) by field_simp; ring, abs_div,
      abs_of_pos (show 0 < 2 * π by positivity), div_le_iff₀ (by positivity)]
    linarith

/-! ## Instances -/

/-- A sufficient condition for the signed radius not to vanish. -/
theorem off_of_lt {P : V3} (h : 2e-16 * axisDistance P < |P 1|) : sin (1e-16 + arctan2 (P 1) (P 0)) ≠ 0 := by
  intro h0
  obtain ⟨-, hy⟩ := polar_arctan2 (P 0) (P 1)
  change P 1 = axisDistance P * _ at hy
  obtain ⟨φ, hφ⟩ : ∃ φ, φ = arctan2 (P 1) (P 0) := ⟨_, rfl⟩
  rw [← hφ] at h0 hy
  rw [sin_add] at h0
  have hR : 0 ≤ axisDistance P := sqrt_nonneg _
  have hc : 1 / 2 ≤ cos (1e-16 : ℝ) := by
    have := one_sub_sq_div_two_le_cos (x := (1e-16 : ℝ)); norm_num at this ⊢; linarith
  have hs : |sin (1e-16 : ℝ)| ≤ 1e-16 := by rw [abs_of_pos (sin_pos_of_pos_of_lt_pi (by norm_num) (by linarith [pi_gt_three]))]; exact sin_le (by norm_num)
  have h1 : |cos (1e-16 : ℝ) * sin φ| = |sin (1e-16 : ℝ) * cos φ| := by
    rw [show cos (1e-16 : ℝ) * sin φ = -(sin (1e-16 : ℝ) * cos φ) by linarith, abs_neg]
  rw [abs_mul, abs_mul, abs_of_pos (show 0 < cos (1e-16 : ℝ) by linarith)] at h1
  have h2 : |sin φ| ≤ 2e-16 := by nlinarith [abs_nonneg (sin φ), abs_cos_le_one φ, abs_nonneg (cos φ), mul_le_mul hs (abs_cos_le_one φ) (abs_nonneg _) (by norm_num : (0 : ℝ) ≤ 1e-16)]
  rw [hy, abs_mul, abs_of_nonneg hR] at h
  nlinarith

/-- A field line with `ι = 2/3` on the torus with radii `1` and `1/2`, sampled six times per poloidal turn: the reported value converges to `2/3`. -/
example : Filter.Tendsto (fun N => (iotaOfTrace N (fun k => torusPoint 1 (1 / 2) (π / 4 - 1e-16 + k * (π / 2)) (0 + k * (π / 3)))).1) Filter.atTop
    (nhds (2 / 3)) := by
  have hpi := pi_pos
  have := C91_iota_limit (R0 := 1) (a := 1 / 2) (Φ := π / 4 - 1e-16) (θ := 0) (α := π / 3) (β := π / 2) (by norm_num) (by norm_num) (by positivity)
    (by rw [abs_of_pos (by positivity)]; linarith) (by positivity) (by rw [abs_of_pos (by positivity)]; linarith) (by
      intro k
      obtain ⟨j, hj⟩ := arctan2_of_polar (ρ := 1 + 1 / 2 * cos (0 + k * (π / 3))) (Θ := π / 4 - 1e-16 + k * (π / 2))
        (x := torusPoint 1 (1 / 2) (π / 4 - 1e-16 + k * (π / 2)) (0 + k * (π / 3)) 0) (y := torusPoint 1 (1 / 2) (π / 4 - 1e-16 + k * (π / 2)) (0 + k * (π / 3)) 1)
        (by linarith [neg_one_le_cos (0 + k * (π / 3))]) rfl rfl
      rw [hj, show (1e-16 : ℝ) + (π / 4 - 1e-16 + k * (π / 2) + 2 * π * j) = π / 4 + k * (π / 2) + j * (2 * π) by ring, sin_add_int_mul_two_pi]
      intro h0
      have h1 := cos_sq (π / 4 + k * (π / 2))
      have h2 := sin_sq_add_cos_sq (π / 4 + k * (π / 2))
      rw [h0, h1, show 2 * (π / 4 + k * (π / 2)) = π / 2 + k * π by ring, cos_add_nat_mul_pi, cos_pi_div_two] at h2
      norm_num at h2)
  rw [show |π / 3 / (π / 2)| = (2 / 3 : ℝ) by rw [show π / 3 / (π / 2) = 2 / 3 by field_simp]; norm_num] at this
  exact this

/-- Two traces with any poloidal angles near the axis of the helical domain: half a toroidal turn, `nfp = 2`, four samples. -/
example (t : Nat → ℝ) : |(iotaOfTrace 4 (fun k => helicalMap 0.33 0.25 1.2 0 2 ![0.1, t k, 1 / 16 + k * (1 / 8)])).2.1 - 2 * (1 / 8 * 3)| ≤ 1 / 2 := by
  have hpi := pi_pos
  have hc8 : (7 / 10 : ℝ) < cos (π / 4) := by
    rw [cos_pi_div_four, lt_div_iff₀ (by norm_num)]
    exact lt_sqrt_of_sq_lt (by norm_num)
  have h := (C91_helical_axis_counted (N := 4) (by norm_num) (ε := 0.33) (h := 0.25) (κ := 1.2) (α := 0) (nfp := 2) (ζ0 := 1 / 16) (σ := 1 / 8) (ρ := 0.1)
    (fun _ => 0.1) t (by norm_num) (by norm_num) (by norm_num) (fun _ _ => ⟨by norm_num, le_rfl⟩) ⟨1, by norm_num⟩
    (by rw [show π * (2 * (1 / 8)) = π / 4 by ring, sin_pi_div_four]; positivity) (by rw [abs_of_pos] <;> norm_num) (by rw [abs_of_pos] <;> norm_num)
    (by rw [show π * (2 * (1 / 8)) = π / 4 by ring]; rw [cos_pi_div_four] at hc8 ⊢; norm_num; linarith)
    (by
      have : cos (π / 4) ≤ cos (π * (1 / 8)) := cos_le_cos_of_nonneg_of_le_pi (by positivity) (by linarith) (by linarith)
      rw [cos_pi_div_four] at this hc8; norm_num; linarith)
    (by
      intro k hk
      apply off_of_lt
      obtain ⟨p, hp⟩ : ∃ p, p = helicalMap 0.33 0.25 1.2 0 2 ![0.1, t k, 1 / 16 + k * (1 / 8)] := ⟨_, rfl⟩
      have ho := helix_offset 0.33 0.25 1.2 0 2 ![0.1, t k, 1 / 16 + k * (1 / 8)]
      rw [← hp] at ho
      change (p 0 - helixX 0.25 1.2 0 2 (1 / 16 + k * (1 / 8)) 0) ^ 2 + (p 1 - helixX 0.25 1.2 0 2 (1 / 16 + k * (1 / 8)) 1) ^ 2
        + (p 2 - helixX 0.25 1.2 0 2 (1 / 16 + k * (1 / 8)) 2) ^ 2 ≤ (0.33 * 0.1) ^ 2 at ho
      rw [← hp]
      obtain ⟨X, hX⟩ : ∃ X, X = helixX 0.25 1.2 0 2 (1 / 16 + k * (1 / 8)) := ⟨_, rfl⟩
      rw [← hX] at ho
      have hX1 : X 1 = (1 + 1.2 * 0.25 * cos (2 * π * 2 * (1 / 16 + k * (1 / 8)) + 0)) * cos (2 * π * (1 / 16 + k * (1 / 8))) := by rw [hX]; rfl
      have hX0 : X 0 = (1 + 1.2 * 0.25 * cos (2 * π * 2 * (1 / 16 + k * (1 / 8)) + 0)) * sin (2 * π * (1 / 16 + k * (1 / 8))) := by rw [hX]; rfl
      have hcsq : 0.1 ≤ cos (2 * π * (1 / 16 + k * (1 / 8))) ^ 2 := by
        rw [cos_sq]
        have hlow : -0.8 ≤ cos (2 * (2 * π * (1 / 16 + k * (1 / 8)))) := by
          have e : cos (2 * (2 * π * (1 / 16 + k * (1 / 8)))) ^ 2 = 1 / 2 := by
            rw [cos_sq, show 2 * (2 * (2 * π * (1 / 16 + k * (1 / 8)))) = π / 2 + k * π by ring, cos_add_nat_mul_pi, cos_pi_div_two]; norm_num
          nlinarith
        linarith
      obtain ⟨c, hc⟩ : ∃ c, c = cos (2 * π * (1 / 16 + k * (1 / 8))) := ⟨_, rfl⟩
      obtain ⟨s, hs⟩ : ∃ s, s = sin (2 * π * (1 / 16 + k * (1 / 8))) := ⟨_, rfl⟩
      obtain ⟨d, hd⟩ : ∃ d, d = cos (2 * π * 2 * (1 / 16 + k * (1 / 8)) + 0) := ⟨_, rfl⟩
      have hd1 : -1 ≤ d := by rw [hd]; exact neg_one_le_cos _
      have hd2 : d ≤ 1 := by rw [hd]; exact cos_le_one _
      have hcs : c ^ 2 + s ^ 2 = 1 := by rw [hc, hs]; exact cos_sq_add_sin_sq _
      rw [← hc, ← hd] at hX1
      rw [← hs, ← hd] at hX0
      rw [← hc] at hcsq
      have hX1b : 0.2 ≤ |X 1| := by
        rw [hX1, abs_mul, abs_of_pos (by norm_num; linarith)]
        have : 0.3 ≤ |c| := by
          rw [← abs_of_pos (show (0 : ℝ) < 0.3 by norm_num)]
          exact sq_le_sq.1 (by norm_num; norm_num at hcsq; linarith)
        norm_num at this ⊢
        nlinarith [abs_nonneg c]
      have hp1 : |p 1 - X 1| ≤ 0.033 := by
        apply abs_le_of_sq_le_sq _ (by norm_num)
        have := sq_nonneg (p 0 - X 0); have := sq_nonneg (p 2 - X 2)
        norm_num at ho ⊢; linarith
      have hp0 : |p 0 - X 0| ≤ 0.033 := by
        apply abs_le_of_sq_le_sq _ (by norm_num)
        have := sq_nonneg (p 1 - X 1); have := sq_nonneg (p 2 - X 2)
        norm_num at ho ⊢; linarith
      have hs1 : |s| ≤ 1 := by rw [hs]; exact abs_sin_le_one _
      have hc1 : |c| ≤ 1 := by rw [hc]; exact abs_cos_le_one _
      have hXa : |X 0| ≤ 1.3 := by
        rw [hX0, abs_mul, abs_of_pos (by norm_num; linarith)]; norm_num; nlinarith [abs_nonneg s]
      have hXb : |X 1| ≤ 1.3 := by
        rw [hX1, abs_mul, abs_of_pos (by norm_num; linarith)]; norm_num; nlinarith [abs_nonneg c]
      have q1 : 0.1 ≤ |p 1| := by
        have := abs_sub_abs_le_abs_sub (X 1) (p 1)
        rw [abs_sub_comm] at this
        norm_num at *
        linarith
      have q2 : |p 0| ≤ 2 := by
        have := abs_sub_abs_le_abs_sub (p 0) (X 0)
        norm_num at *
        linarith
      have q3 : |p 1| ≤ 2 := by
        have := abs_sub_abs_le_abs_sub (p 1) (X 1)
        norm_num at *
        linarith
      have hR : axisDistance p ≤ 3 := by
        unfold axisDistance
        rw [sqrt_le_left (by norm_num), ← sq_abs (p 0), ← sq_abs (p 1)]
        nlinarith [abs_nonneg (p 0), abs_nonneg (p 1)]
      norm_num at q1 ⊢
      linarith)).1
  norm_num at h ⊢
  exact h

/-- The unit circle traced at unit speed for time `500` with the script's `10000` samples: `500/(2π)` turns are reported. -/
example : (iotaOfTrace 10000 (fun k => (fun t : ℝ => (![1 * cos t, 1 * sin t, 0] : V3)) (500 * k / ((10000 - 1 : Nat) : ℝ)))).2.2 = (500 - 0) / (2 * π) := by
  refine C91_turns_of_curve (N := 10000) (by norm_num) (fun t => ![1 * cos t, 1 * sin t, 0]) (fun t => ![-sin t, cos t, 0]) (fun _ => 1) (fun _ => 0) (fun t => t) (fun _ => 1)
    (T := 500) (ρ := 1) (by norm_num) (by norm_num) ?_ ?_ (fun t => hasDerivAt_const t 1) (fun t => hasDerivAt_id t) (fun t => rfl) (fun t => rfl) (fun _ => le_rfl) ?_
  · intro t
    rw [hasDerivAt_pi]
    intro i
    fin_cases i
    · change HasDerivAt (fun t => 1 * cos t) (-sin t) t
      simpa using hasDerivAt_cos t
    · change HasDerivAt (fun t => 1 * sin t) (cos t) t
      simpa using hasDerivAt_sin t
    · exact hasDerivAt_const t (0 : ℝ)
  · intro t
    unfold norm3
    change √ ((-sin t) ^ 2 + cos t ^ 2 + (0 : ℝ) ^ 2) ≤ 1
    rw [show (-sin t) ^ 2 + cos t ^ 2 + (0 : ℝ) ^ 2 = 1 by linear_combination sin_sq_add_cos_sq t, sqrt_one]
  · have := pi_gt_three
    norm_num
    linarith

/-- Case of `C91_toroidal_turns` and `C91_turns_mod_one`: the unit circle sampled eight times per turn. -/
example (N : Nat) (hN : 0 < N) := C91_toroidal_turns hN (fun k => ![cos (k * (π / 4)), sin (k * (π / 4)), 0]) (fun k => k * (π / 4))
  (fun k _ => ⟨1, one_pos, by simp, by simp⟩) (fun k _ => by
    push_cast
    rw [show ((k : ℝ) + 1) * (π / 4) - k * (π / 4) = π / 4 by ring, abs_of_pos (by positivity)]
    linarith [pi_pos])
example (N : Nat) (hN : 0 < N) := C91_turns_mod_one hN (fun k => ![cos (k * (π / 4)), sin (k * (π / 4)), 0])
/-- Case of `C91_poloidal_turns`: the same circle around `(3, 1)`. -/
example (N : Nat) (hN : 0 < N) := C91_poloidal_turns hN (fun k => 3 + cos (k * (π / 4))) (fun k => 1 + sin (k * (π / 4))) 3 1 (fun k => k * (π / 4))
  (fun k _ => ⟨1, one_pos, by simp, by simp⟩) (fun k _ => by
    push_cast
    rw [show ((k : ℝ) + 1) * (π / 4) - k * (π / 4) = π / 4 by ring, abs_of_pos (by positivity)]
    linarith [pi_pos])
/-- Case of `C91_aliasing`: steps of three quarters of a turn. -/
example (N : Nat) (hN : 0 < N) := C91_aliasing hN (fun k => ![cos (0 + k * (3 * π / 2)), sin (0 + k * (3 * π / 2)), 0]) (α := 3 * π / 2) (Φ := 0)
  (by linarith [pi_pos]) (by linarith [pi_pos]) (fun k _ => ⟨1, one_pos, by simp, by simp⟩)
/-- Case of `C91_crossing_plane` and `C91_signed_radius`: the point at distance 2 in the half plane of `φ = 1/8`. -/
example := C91_signed_radius (1 / 8) 2 ![2 * cos (2 * π * (1 / 8)), 2 * sin (2 * π * (1 / 8)), 5] (by norm_num) rfl rfl
example := C91_crossing_plane (1 / 8) ![3, 4, 5] (by unfold axisDistance; simp; norm_num)

end Mrx.Props
