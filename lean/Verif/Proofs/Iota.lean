import Verif.Model.Iota
import Mathlib.Analysis.SpecialFunctions.Complex.Arg
import Mathlib.Analysis.Calculus.MeanValue
import Mathlib.Tactic.Ring
import Mathlib.Tactic.Linarith
import Mathlib.Tactic.LinearCombination
import Mathlib.Tactic.FieldSimp
import Mathlib.Tactic.Positivity

/-! # Lemmas for C91: `jnp.unwrap` and winding numbers -/

set_option linter.unusedSectionVars false
set_option linter.unusedVariables false

namespace Mrx
open Real

theorem jmod_of_shift {x m y : ℝ} (hm : 0 < m) {j : Int} (hx : x = y + m * j) (h0 : 0 ≤ y) (h1 : y < m) : jmod x m = y := by
  unfold jmod
  have : ⌊x / m⌋ = j := by
    rw [hx, Int.floor_eq_iff]
    have e : (y + m * j) / m = y / m + j := by field_simp
    rw [e]
    have a : 0 ≤ y / m := by positivity
    have b : y / m < 1 := (div_lt_one hm).2 h1
    constructor <;> linarith
  rw [this, hx]; ring

/-- A corrected difference is congruent to the difference and lies in `[−π, π]`. -/
theorem phCorrect_spec (dd : ℝ) : (∃ j : Int, phCorrect dd = 2 * π * j) ∧ |dd + phCorrect dd| ≤ π := by
  have hpi := pi_pos
  have h2 : (0 : ℝ) < 2 * π := by positivity
  have fl := Int.floor_le ((dd + π) / (2 * π))
  have lf := Int.lt_floor_add_one ((dd + π) / (2 * π))
  rw [le_div_iff₀ h2] at fl
  rw [div_lt_iff₀ h2] at lf
  unfold phCorrect
  beta_reduce
  by_cases hd : |dd| < π
  · rw [if_pos hd]
    exact ⟨⟨0, by simp⟩, by simpa using hd.le⟩
  rw [if_neg hd]
  by_cases hm : jmod (dd + π) (2 * π) - π = -π ∧ 0 < dd
  · rw [if_pos hm]
    obtain ⟨hm1, hm2⟩ := hm
    unfold jmod at hm1
    refine ⟨⟨1 - ⌊(dd + π) / (2 * π)⌋, ?_⟩, ?_⟩
    · push_cast; linarith
    · rw [add_sub_cancel, abs_of_pos hpi]
  · rw [if_neg hm]
    unfold jmod
    refine ⟨⟨-⌊(dd + π) / (2 * π)⌋, by push_cast; ring⟩, ?_⟩
    rw [abs_le]; constructor <;> linarith

/-- A difference that is congruent to a number below `π` is corrected to that number. -/
theorem phCorrect_eq {dd D : ℝ} (hD : |D| < π) {j : Int} (h : dd = D + 2 * π * j) : dd + phCorrect dd = D := by
  have hpi := pi_pos
  obtain ⟨⟨i, hi⟩, hb⟩ := phCorrect_spec dd
  have e : dd + phCorrect dd = D + 2 * π * ((j + i : Int) : ℝ) := by rw [hi, h]; push_cast; ring
  rw [e] at hb ⊢
  obtain ⟨b1, b2⟩ := abs_le.1 hb
  obtain ⟨d1, d2⟩ := abs_lt.1 hD
  have k : (j + i : Int) = 0 := by
    have u : ((j + i : Int) : ℝ) < 1 := by nlinarith
    have l : (-1 : ℝ) < ((j + i : Int) : ℝ) := by nlinarith
    have u' : (j + i : Int) < 1 := by exact_mod_cast u
    have l' : (-1 : Int) < (j + i : Int) := by exact_mod_cast l
    omega
  rw [k]; simp

theorem phCorrect_neg (dd : ℝ) : phCorrect (-dd) = -phCorrect dd := by
  have hpi := pi_pos
  obtain ⟨⟨i, hi⟩, hb⟩ := phCorrect_spec dd
  rcases lt_or_eq_of_le hb with h | h
  · have := phCorrect_eq (dd := -dd) (D := -(dd + phCorrect dd)) (by rwa [abs_neg]) (j := i) (by rw [hi]; ring)
    linarith
  · -- the boundary: the corrected difference has the sign of the difference
    have key : ∀ d : ℝ, |d + phCorrect d| = π → ∀ j : Int, d = π + 2 * π * j → phCorrect d = (if 0 < d then π else -π) - d := by
      intro d hd j hj
      have hm : jmod (d + π) (2 * π) = 0 := jmod_of_shift (by positivity) (j := j + 1) (by rw [hj]; push_cast; ring) le_rfl (by positivity)
      unfold phCorrect
      beta_reduce
      have hnot : ¬ |d| < π := by
        intro hlt
        obtain ⟨a, b⟩ := abs_lt.1 hlt
        rw [hj] at a b
        have u : (j : ℝ) < 0 := by nlinarith
        have l : (-1 : ℝ) < (j : ℝ) := by nlinarith
        have u' : j < 0 := by exact_mod_cast u
        have l' : -1 < j := by exact_mod_cast l
        omega
      rw [hm, if_neg hnot]
      by_cases hp : 0 < d
      · rw [if_pos ⟨by ring, hp⟩, if_pos hp]
      · rw [if_neg (by tauto), if_neg hp]; ring
    have hne : dd ≠ 0 := by
      rintro rfl
      have : phCorrect 0 = 0 := by unfold phCorrect; simp [hpi]
      rw [this] at h; simp at h; linarith
    have hodd : ∃ j : Int, dd = π + 2 * π * j := by
      rcases abs_eq hpi.le |>.1 h with h' | h'
      · exact ⟨-i, by push_cast; linarith⟩
      · exact ⟨-i - 1, by push_cast; linarith⟩
    obtain ⟨j, hj⟩ := hodd
    have hneg : -dd = π + 2 * π * ((-j - 1 : Int) : ℝ) := by rw [hj]; push_cast; ring
    have e1 := key dd h j hj
    have e2 : phCorrect (-dd) = (if 0 < -dd then π else -π) - -dd := by
      refine key (-dd) ?_ _ hneg
      obtain ⟨⟨i', hi'⟩, hb'⟩ := phCorrect_spec (-dd)
      rcases lt_or_eq_of_le hb' with hlt | heq
      · exfalso
        have := phCorrect_eq (dd := dd) (D := -(-dd + phCorrect (-dd))) (by rwa [abs_neg]) (j := i') (by rw [hi']; ring)
        rw [this, abs_neg] at h
        linarith
      · exact heq
    rw [e1, e2]
    rcases lt_or_gt_of_ne hne with hl | hg
    · rw [if_pos (by linarith), if_neg (by linarith)]; ring
    · rw [if_neg (by linarith), if_pos hg]; ring

theorem unwrap_zero (p : Nat → ℝ) : unwrap p 0 = p 0 := by simp [unwrap]

theorem unwrap_succ (p : Nat → ℝ) (k : Nat) : unwrap p (k + 1) = unwrap p k + (p (k + 1) - p k + phCorrect (p (k + 1) - p k)) := by
  unfold unwrap; rw [Finset.sum_range_succ]; ring

/-- Unwrapping recovers any lift whose steps stay below `π`. -/
theorem unwrap_lift (p Θ : Nat → ℝ) (N : Nat) (hc : ∀ k, k < N → ∃ j : Int, p k = Θ k + 2 * π * j)
    (hs : ∀ k, k + 1 < N → |Θ (k + 1) - Θ k| < π) (k : Nat) (hk : k < N) : unwrap p k - unwrap p 0 = Θ k - Θ 0 := by
  induction k with
  | zero => simp
  | succ k ih =>
    have := ih (by omega)
    obtain ⟨j, hj⟩ := hc k (by omega)
    obtain ⟨j', hj'⟩ := hc (k + 1) hk
    rw [unwrap_succ, phCorrect_eq (hs k hk) (j := j' - j) (by rw [hj, hj']; push_cast; ring)]
    linarith

/-- Polar angle of a point in the plane other than the origin. -/
theorem arctan2_of_polar {ρ Θ x y : ℝ} (hρ : 0 < ρ) (hx : x = ρ * cos Θ) (hy : y = ρ * sin Θ) : ∃ j : Int, arctan2 y x = Θ + 2 * π * j := by
  unfold arctan2
  have e : (⟨x, y⟩ : ℂ) = (ρ : ℂ) * (Complex.cos Θ + Complex.sin Θ * Complex.I) := by
    rw [← Complex.ofReal_cos, ← Complex.ofReal_sin]
    apply Complex.ext <;> simp [hx, hy, -Complex.ofReal_cos, -Complex.ofReal_sin]
  rw [e]
  exact ⟨_, by linarith [Complex.arg_mul_cos_add_sin_mul_I_sub hρ Θ]⟩

/-- Every point has a polar representation with its `arctan2`. -/
theorem polar_arctan2 (x y : ℝ) : x = √ (x ^ 2 + y ^ 2) * cos (arctan2 y x) ∧ y = √ (x ^ 2 + y ^ 2) * sin (arctan2 y x) := by
  have hn : ‖(⟨x, y⟩ : ℂ)‖ = √ (x ^ 2 + y ^ 2) := by
    rw [Complex.norm_def, Complex.normSq_apply]; congr 1; ring
  unfold arctan2
  rw [← hn]
  exact ⟨(Complex.norm_mul_cos_arg (⟨x, y⟩ : ℂ)).symm, (Complex.norm_mul_sin_arg (⟨x, y⟩ : ℂ)).symm⟩

/-- A point within the fraction `s < 1` of the distance `a` from `a e^{iθ}` has a polar angle within `arcsin s` of `θ`. -/
theorem angle_dominated {a θ s u v : ℝ} (ha : 0 < a) (hs0 : 0 ≤ s) (hs1 : s < 1) (hw : u ^ 2 + v ^ 2 ≤ (s * a) ^ 2) :
    ∃ e ρ : ℝ, |e| ≤ arcsin s ∧ 0 < ρ ∧ a * cos θ + u = ρ * cos (θ + e) ∧ a * sin θ + v = ρ * sin (θ + e) := by
  have hcs := cos_sq_add_sin_sq θ
  -- rotate back and scale
  obtain ⟨p, hp⟩ : ∃ p, p = (u * cos θ + v * sin θ) / a := ⟨_, rfl⟩
  obtain ⟨q, hq⟩ : ∃ q, q = (v * cos θ - u * sin θ) / a := ⟨_, rfl⟩
  have hpa : p * a = u * cos θ + v * sin θ := by rw [hp]; field_simp
  have hqa : q * a = v * cos θ - u * sin θ := by rw [hq]; field_simp
  have hpq : p ^ 2 + q ^ 2 ≤ s ^ 2 := by
    have h1 : (p * a) ^ 2 + (q * a) ^ 2 = u ^ 2 + v ^ 2 := by
      rw [hpa, hqa]; linear_combination (u ^ 2 + v ^ 2) * hcs
    have h2 : (p ^ 2 + q ^ 2) * a ^ 2 ≤ s ^ 2 * a ^ 2 := by nlinarith
    exact le_of_mul_le_mul_right h2 (by positivity)
  have hp1 : 0 < 1 + p := by nlinarith [sq_nonneg q, sq_nonneg (p + s)]
  obtain ⟨z, hz⟩ : ∃ z : ℂ, z = ⟨1 + p, q⟩ := ⟨_, rfl⟩
  have hz0 : z ≠ 0 := by intro h; rw [hz] at h; have := congrArg Complex.re h; simp at this; linarith
  have hn : 0 < ‖z‖ := norm_pos_iff.2 hz0
  have hnsq : ‖z‖ ^ 2 = (1 + p) ^ 2 + q ^ 2 := by
    rw [Complex.sq_norm, hz, Complex.normSq_apply]; ring
  refine ⟨z.arg, a * ‖z‖, ?_, by positivity, ?_, ?_⟩
  · rw [Complex.arg_of_re_nonneg (by rw [hz]; exact hp1.le)]
    have hb : |z.im / ‖z‖| ≤ s := by
      rw [abs_div, abs_of_pos hn, div_le_iff₀ hn, hz]
      apply abs_le_of_sq_le_sq' _ (by positivity) |> abs_le.2
      rw [← hz, mul_pow, hnsq, show z.im = q by rw [hz]]
      nlinarith [sq_nonneg (s ^ 2 + p), mul_nonneg (sub_nonneg.2 hpq) (show 0 ≤ 1 - s ^ 2 by nlinarith)]
    rw [abs_le] at hb ⊢
    exact ⟨by rw [← arcsin_neg]; exact arcsin_le_arcsin hb.1, arcsin_le_arcsin hb.2⟩
  · have c1 := Complex.norm_mul_cos_arg z
    have c2 := Complex.norm_mul_sin_arg z
    rw [cos_add]
    have : z.re = 1 + p := by rw [hz]
    have : z.im = q := by rw [hz]
    have : a * ‖z‖ * (cos θ * cos z.arg - sin θ * sin z.arg) = a * (1 + p) * cos θ - a * q * sin θ := by
      rw [show a * ‖z‖ * (cos θ * cos z.arg - sin θ * sin z.arg) = a * cos θ * (‖z‖ * cos z.arg) - a * sin θ * (‖z‖ * sin z.arg) by ring, c1, c2, hz]
      ring
    rw [this]
    linear_combination (-cos θ) * hpa + sin θ * hqa - u * hcs
  · have c1 := Complex.norm_mul_cos_arg z
    have c2 := Complex.norm_mul_sin_arg z
    rw [sin_add]
    have : a * ‖z‖ * (sin θ * cos z.arg + cos θ * sin z.arg) = a * (1 + p) * sin θ + a * q * cos θ := by
      rw [show a * ‖z‖ * (sin θ * cos z.arg + cos θ * sin z.arg) = a * sin θ * (‖z‖ * cos z.arg) + a * cos θ * (‖z‖ * sin z.arg) by ring, c1, c2, hz]
      ring
    rw [this]
    linear_combination (-sin θ) * hpa - cos θ * hqa - v * hcs

/-- The turns counted on samples that follow a rotating vector up to a fraction `s`. -/
theorem turns_dominated {N : Nat} (hN : 0 < N) (θ a x y : Nat → ℝ) {s δ : ℝ} (ha : ∀ k, k < N → 0 < a k) (hs0 : 0 ≤ s) (hδ : 0 ≤ δ) (hδ1 : δ ≤ π) (hs : s < cos (δ / 2))
    (hθ : ∀ k, k + 1 < N → |θ (k + 1) - θ k| ≤ δ)
    (hw : ∀ k, k < N → (x k - a k * cos (θ k)) ^ 2 + (y k - a k * sin (θ k)) ^ 2 ≤ (s * a k) ^ 2) :
    |(unwrap (fun k => arctan2 (y k) (x k)) (N - 1) - unwrap (fun k => arctan2 (y k) (x k)) 0) - (θ (N - 1) - θ 0)| ≤ 2 * arcsin s := by
  have hs1 : s < 1 := lt_of_lt_of_le hs (cos_le_one _)
  have harc : arcsin s < π / 2 - δ / 2 := by
    have h1 := arcsin_lt_arcsin (by linarith) hs (cos_le_one _)
    rwa [← sin_pi_div_two_sub, arcsin_sin (by linarith) (by linarith)] at h1
  have hex : ∀ k, ∃ e : ℝ, k < N → |e| ≤ arcsin s ∧ ∃ j : Int, arctan2 (y k) (x k) = (θ k + e) + 2 * π * j := by
    intro k
    by_cases hk : k < N
    · obtain ⟨e, ρ, he, hρ, h1, h2⟩ := angle_dominated (θ := θ k) (ha k hk) hs0 hs1 (hw k hk)
      exact ⟨e, fun _ => ⟨he, arctan2_of_polar hρ (by rw [← h1]; ring) (by rw [← h2]; ring)⟩⟩
    · exact ⟨0, fun h => absurd h hk⟩
  choose e he using hex
  have := unwrap_lift (fun k => arctan2 (y k) (x k)) (fun k => θ k + e k) N (fun k hk => (he k hk).2) (by
    intro k hk
    have h1 := abs_le.1 (he k (by omega)).1
    have h2 := abs_le.1 (he (k + 1) hk).1
    have h3 := abs_le.1 (hθ k hk)
    rw [abs_lt]; constructor <;> linarith) (N - 1) (by omega)
  rw [this]
  have h1 := abs_le.1 (he 0 hN).1
  have h2 := abs_le.1 (he (N - 1) (by omega)).1
  rw [abs_le]; constructor <;> linarith

/-- The sign of a nonzero number. -/
theorem abs_jsign {x : ℝ} (h : x ≠ 0) : |jsign x| = 1 := by
  unfold jsign
  rcases lt_or_gt_of_ne h with h | h
  · rw [if_neg (by linarith), if_pos h]; simp
  · rw [if_pos h]; simp

end Mrx
