import Verif.Props.HighPoisson
import Verif.Props.Manufactured
import Verif.Props.ToroidScript

/-!
# C119: the manufactured Poisson problem of the torus scripts

The energy error of the solution the scripts `toroid_poisson.py` compute is of order `p`.
-/

set_option linter.unusedSectionVars false
set_option linter.unusedVariables false

namespace Mrx.Props
open Finset Mrx.Spec Mrx Matrix DeRham Quad Real

theorem toroid_metric (ε R0 : ℝ) (x : V3) :
    (jacfwd (toroidMap ε 1 R0) x)ᵀ * jacfwd (toroidMap ε 1 R0) x = diagonal ![ε ^ 2, (2 * π * ε * x 0) ^ 2, (2 * π * (R0 + ε * x 0 * cos (2 * π * x 1))) ^ 2] := by
  have h1 := (((coord_hasFDerivAt 0 x).const_mul ε).mul ((coord_hasFDerivAt 1 x).const_mul (2 * π)).cos).const_add R0
  have h2 := ((coord_hasFDerivAt 0 x).const_mul (ε * 1)).mul ((coord_hasFDerivAt 1 x).const_mul (2 * π)).sin
  have hφ := (coord_hasFDerivAt 2 x).const_mul (2 * π)
  have e := jacfwd_of_components (F := toroidMap ε 1 R0) (x := x) ![_, _, _] (by
      intro i
      fin_cases i
      · exact h1.mul hφ.cos
      · exact h1.neg.mul hφ.sin
      · exact h2)
  have c1 := cos_sq_add_sin_sq (2 * π * x 1)
  have c2 := cos_sq_add_sin_sq (2 * π * x 2)
  ext i j
  rw [mul_apply, Fin.sum_univ_three]
  simp only [transpose_apply, e]
  fin_cases i <;> fin_cases j <;> simp [diagonal]
  · linear_combination ε ^ 2 * c1 + cos (2 * π * x 1) ^ 2 * ε ^ 2 * c2
  · linear_combination -(2 * cos (2 * π * x 1) * sin (2 * π * x 1) * ε ^ 2 * x 0 * π) * c2
  · ring
  · linear_combination -(2 * cos (2 * π * x 1) * sin (2 * π * x 1) * ε ^ 2 * x 0 * π) * c2
  · linear_combination 4 * ε ^ 2 * x 0 ^ 2 * π ^ 2 * (sin (2 * π * x 1) ^ 2 * c2 + c1)
  · ring
  · ring
  · ring
  · linear_combination (2 * π * (R0 + ε * x 0 * cos (2 * π * x 1))) ^ 2 * c2

/-- The inverse transposed Jacobian of a map with orthogonal coordinates. -/
theorem orthogonal_inverse {A : M33} {d : Fin 3 → ℝ} (h : Aᵀ * A = diagonal d) (hA : IsUnit A.det) (v : V3) :
    ((A⁻¹)ᵀ *ᵥ v) ⬝ᵥ ((A⁻¹)ᵀ *ᵥ v) = ∑ c, v c ^ 2 / d c := by
  have hu : IsUnit (diagonal d).det := by rw [← h, det_mul, det_transpose]; exact hA.mul hA
  have hd : ∀ c, d c ≠ 0 := by
    rw [det_diagonal, isUnit_iff_ne_zero, prod_ne_zero_iff] at hu
    exact fun c => hu c (mem_univ _)
  have hi : A⁻¹ * (A⁻¹)ᵀ = diagonal fun c => (d c)⁻¹ := by
    rw [transpose_nonsing_inv, ← Matrix.mul_inv_rev, h]
    exact inv_eq_right_inv (by
      rw [diagonal_mul_diagonal]
      simp [hd])
  rw [dotProduct_mulVec, ← mulVec_transpose, transpose_transpose, mulVec_mulVec, hi]
  simp only [dotProduct, mulVec_diagonal]
  exact sum_congr rfl fun c _ => by rw [div_eq_mul_inv]; ring

/-! ## The solution -/

/-- `c (r² - r⁴)` and its derivatives. -/
noncomputable def quarticJet (c : ℝ) (k : Nat) (x : ℝ) : ℝ :=
  c * (if k = 0 then x ^ 2 - x ^ 4 else if k = 1 then 2 * x - 4 * x ^ 3 else if k = 2 then 2 - 12 * x ^ 2 else if k = 3 then -24 * x else if k = 4 then -24 else 0)

theorem quarticJet_deriv (c : ℝ) (k : Nat) (x : ℝ) : HasDerivAt (quarticJet c k) (quarticJet c (k + 1) x) x := by
  have key : ∀ k x, HasDerivAt (fun x : ℝ => if k = 0 then x ^ 2 - x ^ 4 else if k = 1 then 2 * x - 4 * x ^ 3 else if k = 2 then 2 - 12 * x ^ 2 else if k = 3 then -24 * x else if k = 4 then -24 else 0)
      (if k + 1 = 0 then x ^ 2 - x ^ 4 else if k + 1 = 1 then 2 * x - 4 * x ^ 3 else if k + 1 = 2 then 2 - 12 * x ^ 2 else if k + 1 = 3 then -24 * x else if k + 1 = 4 then -24 else 0) x := by
    intro k x
    match k with
    | 0 =>
      show HasDerivAt (fun x : ℝ => x ^ 2 - x ^ 4) (2 * x - 4 * x ^ 3) x
      exact ((hasDerivAt_pow 2 x).sub (hasDerivAt_pow 4 x)).congr_deriv (by norm_num)
    | 1 =>
      show HasDerivAt (fun x : ℝ => 2 * x - 4 * x ^ 3) (2 - 12 * x ^ 2) x
      exact (((hasDerivAt_id x).const_mul 2).sub ((hasDerivAt_pow 3 x).const_mul 4)).congr_deriv (by push_cast; ring)
    | 2 =>
      show HasDerivAt (fun x : ℝ => 2 - 12 * x ^ 2) (-24 * x) x
      exact (((hasDerivAt_pow 2 x).const_mul 12).const_sub 2).congr_deriv (by push_cast; ring)
    | 3 =>
      show HasDerivAt (fun x : ℝ => -24 * x) (-24) x
      exact ((hasDerivAt_id x).const_mul (-24)).congr_deriv (by ring)
    | 4 => simpa using hasDerivAt_const x (-24 : ℝ)
    | k + 5 => simpa using hasDerivAt_const x (0 : ℝ)
  exact (key k x).const_mul c

theorem quarticJet_le {c : ℝ} (hc : |c| ≤ 1) (k : Nat) (x : ℝ) (h0 : 0 ≤ x) (h1 : x ≤ 1) : |quarticJet c k x| ≤ 24 := by
  unfold quarticJet
  rw [abs_mul]
  have p2 : x ^ 2 ≤ 1 := pow_le_one₀ h0 h1
  have p3 : x ^ 3 ≤ 1 := pow_le_one₀ h0 h1
  have p4 : x ^ 4 ≤ 1 := pow_le_one₀ h0 h1
  have q2 : 0 ≤ x ^ 2 := by positivity
  have q3 : 0 ≤ x ^ 3 := by positivity
  have q4 : 0 ≤ x ^ 4 := by positivity
  have : |if k = 0 then x ^ 2 - x ^ 4 else if k = 1 then 2 * x - 4 * x ^ 3 else if k = 2 then 2 - 12 * x ^ 2 else if k = 3 then -24 * x else if k = 4 then -24 else 0| ≤ 24 := by
    split_ifs <;> rw [abs_le] <;> constructor <;> linarith
  calc _ ≤ 1 * 24 := mul_le_mul hc this (abs_nonneg _) zero_le_one
    _ = 24 := one_mul _

theorem quarticJet_zero_le {c : ℝ} (hc : |c| ≤ 1) (x : ℝ) (h0 : 0 ≤ x) (h1 : x ≤ 1) : |quarticJet c 0 x| ≤ 1 := by
  unfold quarticJet
  rw [abs_mul, if_pos rfl]
  have p2 : x ^ 2 ≤ 1 := pow_le_one₀ h0 h1
  have p4 : x ^ 4 ≤ 1 := pow_le_one₀ h0 h1
  have q2 : 0 ≤ x ^ 2 := by positivity
  have q4 : 0 ≤ x ^ 4 := by positivity
  have : |x ^ 2 - x ^ 4| ≤ 1 := by rw [abs_le]; constructor <;> linarith
  calc _ ≤ 1 * 1 := mul_le_mul hc this (abs_nonneg _) zero_le_one
    _ = 1 := one_mul _

/-- `cos 2πx` and its derivatives. -/
noncomputable def cosJet (k : Nat) (x : ℝ) : ℝ := sinJet (2 * π) (k + 1) x / (2 * π)

theorem cosJet_zero (x : ℝ) : cosJet 0 x = cos (2 * π * x) := by
  unfold cosJet sinJet
  have := pi_pos
  rw [zero_add, pow_one, Nat.cast_one, one_mul, sin_add_pi_div_two]
  field_simp

theorem cosJet_one (x : ℝ) : cosJet 1 x = -(2 * π) * sin (2 * π * x) := by
  unfold cosJet sinJet
  have := pi_pos
  rw [show 2 * π * x + ((1 + 1 : Nat) : ℝ) * (π / 2) = 2 * π * x + π by push_cast; ring, sin_add_pi]
  field_simp
  ring

theorem cosJet_le (k : Nat) (x : ℝ) : |cosJet k x| ≤ (2 * π) ^ k := by
  unfold cosJet
  have := pi_pos
  rw [abs_div, abs_of_pos (by positivity : 0 < 2 * π), div_le_iff₀ (by positivity), ← pow_succ]
  exact sinJet_le (by positivity) _ x

theorem cosJet_periodic (p : Nat) : SmoothDir "periodic" p cosJet ((2 * π) ^ (p + 1)) := by
  refine Or.inr (Or.inl ⟨rfl, fun k _ x _ => ((sinJet_deriv (2 * π) (k + 1) x).div_const (2 * π)).hasDerivWithinAt, fun x => ?_, fun x => cosJet_le _ x⟩)
  rw [cosJet_zero, cosJet_zero, mul_add, mul_one, cos_add_two_pi]

/-- `c (r² - r⁴) cos 2πζ`. -/
noncomputable def torusTerm (c : ℝ) (p : Nat) : GradTerm :=
  { g := quarticJet c, t := fun k _ => if k = 0 then 1 else 0, w := cosJet, Mg := 24, Mt := 0, Mw := (2 * π) ^ (p + 1), G := 1, T := 1, W := 1, G1 := 24, T1 := 0, W1 := 2 * π }

theorem torusTerm_ok {c : ℝ} (hc : |c| ≤ 1) (p : Nat) : (torusTerm c p).Ok (p, p, p) ("clamped", "periodic", "periodic") true true := by
  refine ⟨⟨Or.inl ⟨rfl, fun k _ x _ => (quarticJet_deriv c k x).hasDerivWithinAt, fun x h0 h1 => quarticJet_le hc _ x h0 h1⟩, Or.inr (Or.inl ⟨rfl, fun k _ x _ => ?_, fun x => rfl, fun x => ?_⟩),
    cosJet_periodic p, fun x h0 h1 => ⟨quarticJet_zero_le hc x h0 h1, ?_, ?_⟩, fun _ => Or.inl ⟨?_, fun x => rfl⟩, fun _ => ⟨rfl, ?_, fun h => absurd h (by decide)⟩⟩, fun x h0 h1 => ⟨quarticJet_le hc 1 x h0 h1, ?_, ?_⟩⟩
  · change HasDerivWithinAt (fun _ => if k = 0 then (1 : ℝ) else 0) (if k + 1 = 0 then 1 else 0) Set.univ x
    rw [if_neg (Nat.succ_ne_zero k)]
    exact hasDerivWithinAt_const _ _ _
  · simp [torusTerm]
  · simp [torusTerm]
  · exact (cosJet_le 0 x).trans_eq (pow_zero _)
  · simp [torusTerm, quarticJet]
  · simp [torusTerm, quarticJet]
  · simp [torusTerm]
  · exact (cosJet_le 1 x).trans_eq (pow_one _)

/-! ## The rate -/

/-- The constant of the bound: it depends on the degree alone. -/
noncomputable def torusConst (p : Nat) : ℝ := 200 * ((p : ℝ) + 1) * studyUnit p * (1 + studyUnit p)

theorem torus_rates {n p : Nat} (h : p < n) (c : ℝ) (k : Fin 3) :
    0 ≤ (torusTerm c p).gradError (n, n, n) (p, p, p) ("clamped", "periodic", "periodic") true k ∧
      (torusTerm c p).gradError (n, n, n) (p, p, p) ("clamped", "periodic", "periodic") true k ≤ if k = 1 then 0 else torusConst p / (n : ℝ) ^ p := by
  have n0 : (0 : ℝ) < n := by exact_mod_cast (by omega : 0 < n)
  have hnp : (0 : ℝ) < (n : ℝ) - p := by
    have : (p : ℝ) < n := by exact_mod_cast h
    linarith
  have p0 : (0 : ℝ) ≤ p := Nat.cast_nonneg p
  have pp := pi_pos
  have pi4 := pi_le_four
  obtain ⟨U, hU⟩ : ∃ U, U = studyUnit p := ⟨_, rfl⟩
  have U0 : 0 < U := by rw [hU]; exact studyUnit_pos p
  obtain ⟨y, hy⟩ : ∃ y, y = 1 / (n : ℝ) ^ p := ⟨_, rfl⟩
  have y0 : 0 < y := by rw [hy]; positivity
  have y1 : y ≤ 1 := by
    rw [hy]
    exact (div_le_one (by positivity)).mpr (one_le_pow₀ (by exact_mod_cast (by omega : 1 ≤ n)))
  obtain ⟨ez0, ez1⟩ := high_angular (p := p) (by omega : 0 < n)
  obtain ⟨er0, er1⟩ := high_radial h
  have split : studyUnit p / (n : ℝ) ^ (p + 1) = U * y / n := by rw [hU, hy, pow_succ]; field_simp
  rw [split] at ez1 er1
  obtain ⟨ez, hez⟩ : ∃ ez, ez = fullOrder n p "periodic" ((2 * π) ^ (p + 1)) := ⟨_, rfl⟩
  obtain ⟨er, her⟩ : ∃ er, er = fullOrder n p "clamped" 24 := ⟨_, rfl⟩
  rw [← hez] at ez0 ez1
  have rad : 0 ≤ er ∧ er ≤ 24 * (U * y / n) := by
    have e : er = 24 / π ^ (p + 1) * fullOrder n p "clamped" (π ^ (p + 1)) := by
      rw [her]
      unfold fullOrder
      rw [if_pos rfl, if_pos rfl]
      field_simp
    rw [e]
    refine ⟨by positivity, mul_le_mul ?_ er1 er0 (by norm_num)⟩
    exact div_le_self (by norm_num) (one_le_pow₀ (by linarith [pi_gt_three]))
  have sr : slopeOrder n p "clamped" 24 = 2 * (p * ((n : ℝ) - p)) * er := by unfold slopeOrder; rw [if_pos rfl, her]
  have sz : slopeOrder n p "periodic" ((2 * π) ^ (p + 1)) = 2 * n * ez := by unfold slopeOrder; rw [if_neg (by decide), if_pos rfl, hez]
  have ft : fullOrder n p "periodic" 0 = 0 := by unfold fullOrder; simp
  have st : slopeOrder n p "periodic" 0 = 0 := by unfold slopeOrder; rw [if_neg (by decide), if_pos rfl, ft, mul_zero]
  have ny : n * (U * y / n) = U * y := by field_simp
  have srb : 0 ≤ slopeOrder n p "clamped" 24 ∧ slopeOrder n p "clamped" 24 ≤ 48 * p * (U * y) := by
    rw [sr]
    refine ⟨by have := rad.1; positivity, ?_⟩
    have : ((n : ℝ) - p) * er ≤ n * (24 * (U * y / n)) := mul_le_mul (by linarith) rad.2 rad.1 n0.le
    calc 2 * (p * ((n : ℝ) - p)) * er = 2 * p * (((n : ℝ) - p) * er) := by ring
      _ ≤ 2 * p * (n * (24 * (U * y / n))) := mul_le_mul_of_nonneg_left this (by positivity)
      _ = 48 * p * (n * (U * y / n)) := by ring
      _ = _ := by rw [ny]
  have szb : 0 ≤ slopeOrder n p "periodic" ((2 * π) ^ (p + 1)) ∧ slopeOrder n p "periodic" ((2 * π) ^ (p + 1)) ≤ 2 * (U * y) := by
    rw [sz]
    refine ⟨by positivity, ?_⟩
    calc 2 * (n : ℝ) * ez ≤ 2 * n * (U * y / n) := mul_le_mul_of_nonneg_left ez1 (by positivity)
      _ = 2 * (n * (U * y / n)) := by ring
      _ = _ := by rw [ny]
  have n1 : (1 : ℝ) ≤ n := by exact_mod_cast (by omega : 1 ≤ n)
  have Uy : 0 < U * y := by positivity
  have small : U * y / n ≤ U * y := div_le_self Uy.le n1
  have ez2 : ez ≤ U * y := ez1.trans small
  have er2 : er ≤ 24 * (U * y) := rad.2.trans (by linarith)
  have Uy1 : U * y ≤ U := mul_le_of_le_one_right U0.le y1
  have tgt : torusConst p / (n : ℝ) ^ p = 200 * ((p : ℝ) + 1) * (U * y) * (1 + U) := by unfold torusConst; rw [← hU, hy]; ring
  rw [tgt]
  fin_cases k
  · show 0 ≤ (24 + slopeOrder n p "clamped" 24) * (1 + fullOrder n p "periodic" 0) * (1 + fullOrder n p "periodic" ((2 * π) ^ (p + 1))) - 24 * 1 * 1 ∧
      (24 + slopeOrder n p "clamped" 24) * (1 + fullOrder n p "periodic" 0) * (1 + fullOrder n p "periodic" ((2 * π) ^ (p + 1))) - 24 * 1 * 1 ≤ if (0 : Fin 3) = 1 then 0 else _
    rw [if_neg (by decide), ft, ← hez]
    generalize slopeOrder n p "clamped" 24 = s at *
    obtain ⟨s0, s1⟩ := srb
    have se : 0 ≤ s * ez := mul_nonneg s0 ez0
    have se1 : s * ez ≤ 48 * p * (U * y) * U := mul_le_mul s1 (ez2.trans Uy1) ez0 (by positivity)
    have k1 : 0 ≤ p * (U * y) * U := by positivity
    have k2 : 0 ≤ p * (U * y) := by positivity
    have k3 : 0 ≤ (U * y) * U := by positivity
    constructor
    · nlinarith
    · nlinarith
  · show 0 ≤ (24 + slopeOrder n p "clamped" 24) * (0 + slopeOrder n p "periodic" 0) * (1 + fullOrder n p "periodic" ((2 * π) ^ (p + 1))) - 24 * 0 * 1 ∧
      (24 + slopeOrder n p "clamped" 24) * (0 + slopeOrder n p "periodic" 0) * (1 + fullOrder n p "periodic" ((2 * π) ^ (p + 1))) - 24 * 0 * 1 ≤ if (1 : Fin 3) = 1 then 0 else _
    rw [st, if_pos rfl]
    norm_num
  · show 0 ≤ (1 + fullOrder n p "clamped" 24) * (1 + fullOrder n p "periodic" 0) * (2 * π + slopeOrder n p "periodic" ((2 * π) ^ (p + 1))) - 1 * 1 * (2 * π) ∧
      (1 + fullOrder n p "clamped" 24) * (1 + fullOrder n p "periodic" 0) * (2 * π + slopeOrder n p "periodic" ((2 * π) ^ (p + 1))) - 1 * 1 * (2 * π) ≤ if (2 : Fin 3) = 1 then 0 else _
    rw [if_neg (by decide), ft, ← her]
    generalize slopeOrder n p "periodic" ((2 * π) ^ (p + 1)) = s at *
    obtain ⟨s0, s1⟩ := szb
    have e0 := rad.1
    have se : 0 ≤ er * s := mul_nonneg e0 s0
    have se1 : er * s ≤ 24 * (U * y) * (2 * U) := mul_le_mul er2 (s1.trans (by linarith)) s0 (by positivity)
    have pe : 0 ≤ π * er := mul_nonneg pp.le e0
    have pe1 : π * er ≤ 4 * (24 * (U * y)) := mul_le_mul pi4 er2 e0 (by norm_num)
    have k1 : 0 ≤ p * (U * y) * U := by positivity
    have k2 : 0 ≤ p * (U * y) := by positivity
    have k3 : 0 ≤ (U * y) * U := by positivity
    constructor
    · nlinarith
    · nlinarith

/-- **C119** The torus scripts: with the source of `c (r² - r⁴) cos 2πζ` (`c = 1` in the tutorial, `1/4` in the interactive script), the energy error of the computed solution is at most a constant,
depending on the degree and the torus alone, times `n^-p`, plus the quadrature error of the weak equation. -/
theorem C119_toroid {ε R0 c : ℝ} (hε : 0 < ε) (hR : ε < R0) (hc : |c| ≤ 1) {n p q : Nat} {D : DeRham}
    (h : Admissible (n, n, n) (p, p, p) q ("clamped", "periodic", "periodic") (toroidMap ε 1 R0) true true D) (f : V3 → Fin 1 → ℝ) (G : V3 → V3)
    (hG : ∀ x ∈ D.S.Q.x, (jacfwd (toroidMap ε 1 R0) (toV3 x))ᵀ *ᵥ G (toV3 x)
      = ![c * (2 * x.1 - 4 * x.1 ^ 3) * cos (2 * π * x.2.2), 0, -(2 * π) * c * (x.1 ^ 2 - x.1 ^ 4) * sin (2 * π * x.2.2)]) (K : ℝ) (hK : 0 ≤ K)
    (hw : ∀ v, (l2Product (D.phys1 (D.strongGrad *ᵥ v)) G D.S.Q (toroidMap ε 1 R0) - l2Product (D.phys0 v) f D.S.Q (toroidMap ε 1 R0)) ^ 2 ≤
      K * l2Product (D.phys1 (D.strongGrad *ᵥ v)) (D.phys1 (D.strongGrad *ᵥ v)) D.S.Q (toroidMap ε 1 R0)) :
    l2Product (fun x => G x - D.phys1 (D.strongGrad *ᵥ D.poisson0 f) x) (fun x => G x - D.phys1 (D.strongGrad *ᵥ D.poisson0 f) x) D.S.Q (toroidMap ε 1 R0)
      ≤ 2 * (1 / ε ^ 2 + 1 / (R0 - ε) ^ 2) * (torusConst p / (n : ℝ) ^ p) ^ 2 * quadVolume D (toroidMap ε 1 R0) + K := by
  have hpn : p < n := high_size h rfl
  have hd : 0 < R0 - ε := by linarith
  have hcp : Compatible (n, n, n) ("clamped", "periodic", "periodic") true := ⟨rfl, by decide, by decide, le_rfl, Or.inl rfl⟩
  have key := C119_poisson h hcp ⟨rfl, by decide, by decide⟩ rfl (fun _ => le_rfl) f [torusTerm c p] (fun a ha => by rw [List.mem_singleton.mp ha]; exact torusTerm_ok hc p)
    (1 / ε ^ 2 + 1 / (R0 - ε) ^ 2) K (by positivity) hK (fun x hx e => ?_) G (fun x hx => ?_) hw
  · refine key.trans (add_le_add_left (mul_le_mul_of_nonneg_right ?_ (quadVolume_nonneg h)) K)
    have e : (2 : ℝ) * (1 / ε ^ 2 + 1 / (R0 - ε) ^ 2) * (torusConst p / (n : ℝ) ^ p) ^ 2 = (1 / ε ^ 2 + 1 / (R0 - ε) ^ 2) * ((torusConst p / (n : ℝ) ^ p) ^ 2 + 0 ^ 2 + (torusConst p / (n : ℝ) ^ p) ^ 2) := by ring
    rw [e, Fin.sum_univ_three]
    refine mul_le_mul_of_nonneg_left ?_ (by positivity)
    simp only [List.map_cons, List.map_nil, List.sum_cons, List.sum_nil, add_zero]
    have r0 := torus_rates hpn c 0
    have r1 := torus_rates hpn c 1
    have r2 := torus_rates hpn c 2
    rw [if_neg (by decide)] at r0 r2
    rw [if_pos rfl] at r1
    exact add_le_add (add_le_add (pow_le_pow_left₀ r0.1 r0.2 2) (pow_le_pow_left₀ r1.1 r1.2 2)) (pow_le_pow_left₀ r2.1 r2.2 2)
  · have hxo := points_in_open_cube h _ hx
    have hj := h.regular _ hx
    have hdet : IsUnit (jacfwd (toroidMap ε 1 R0) (toV3 x)).det := isUnit_iff_ne_zero.mpr (lt_of_lt_of_le (by norm_num) hj).ne'
    rw [orthogonal_inverse (toroid_metric ε R0 (toV3 x)) hdet, Fin.sum_univ_three]
    have x0 : x.1 ≠ 0 := by
      intro hz
      have := C59_jacobian ε 1 R0 (toV3 x)
      have z : (toV3 x) 0 = 0 := hz
      rw [z] at this
      have : (jacfwd (toroidMap ε 1 R0) (toV3 x)).det = 0 := this.trans (by ring)
      rw [this] at hdet
      exact not_isUnit_zero hdet
    have pp := pi_gt_three
    have rad : R0 - ε ≤ R0 + ε * x.1 * cos (2 * π * x.2.1) := by
      have a1 : |ε * x.1 * cos (2 * π * x.2.1)| ≤ ε := by
        rw [abs_mul, abs_mul, abs_of_pos hε, abs_of_nonneg hxo.1.1, mul_assoc]
        exact mul_le_of_le_one_right hε.le (mul_le_one₀ hxo.1.2.le (abs_nonneg _) (abs_cos_le_one _))
      linarith [(abs_le.mp a1).1]
    have rp : 0 < R0 + ε * x.1 * cos (2 * π * x.2.1) := hd.trans_le rad
    have t0 : (axisScale true x 0 * e 0) ^ 2 / ε ^ 2 ≤ (1 / ε ^ 2 + 1 / (R0 - ε) ^ 2) * (e 0 * e 0) := by
      rw [axisScale, if_neg (fun hc => absurd hc.2 (by decide)), one_mul, show e 0 ^ 2 / ε ^ 2 = 1 / ε ^ 2 * (e 0 * e 0) by ring]
      exact mul_le_mul_of_nonneg_right (by have : 0 < 1 / (R0 - ε) ^ 2 := by positivity
                                           linarith) (mul_self_nonneg _)
    have t1 : (axisScale true x 1 * e 1) ^ 2 / (2 * π * ε * x.1) ^ 2 ≤ (1 / ε ^ 2 + 1 / (R0 - ε) ^ 2) * (e 1 * e 1) := by
      rw [axisScale, if_pos ⟨rfl, rfl⟩, show (x.1 * e 1) ^ 2 / (2 * π * ε * x.1) ^ 2 = 1 / (2 * π * ε) ^ 2 * (e 1 * e 1) by field_simp]
      refine mul_le_mul_of_nonneg_right ?_ (mul_self_nonneg _)
      have a1 : 1 / (2 * π * ε) ^ 2 ≤ 1 / ε ^ 2 := one_div_le_one_div_of_le (by positivity) (pow_le_pow_left₀ hε.le (by nlinarith) 2)
      have : 0 < 1 / (R0 - ε) ^ 2 := by positivity
      linarith
    have t2 : (axisScale true x 2 * e 2) ^ 2 / (2 * π * (R0 + ε * x.1 * cos (2 * π * x.2.1))) ^ 2 ≤ (1 / ε ^ 2 + 1 / (R0 - ε) ^ 2) * (e 2 * e 2) := by
      rw [axisScale, if_neg (fun hc => absurd hc.2 (by decide)), one_mul,
        show e 2 ^ 2 / (2 * π * (R0 + ε * x.1 * cos (2 * π * x.2.1))) ^ 2 = 1 / (2 * π * (R0 + ε * x.1 * cos (2 * π * x.2.1))) ^ 2 * (e 2 * e 2) by ring]
      refine mul_le_mul_of_nonneg_right ?_ (mul_self_nonneg _)
      have a1 : 1 / (2 * π * (R0 + ε * x.1 * cos (2 * π * x.2.1))) ^ 2 ≤ 1 / (R0 - ε) ^ 2 := one_div_le_one_div_of_le (by positivity) (pow_le_pow_left₀ hd.le (by nlinarith) 2)
      have : 0 < 1 / ε ^ 2 := by positivity
      linarith
    have dot : e ⬝ᵥ e = e 0 * e 0 + e 1 * e 1 + e 2 * e 2 := by rw [dotProduct, Fin.sum_univ_three]
    rw [dot]
    refine (add_le_add (add_le_add t0 t1) t2).trans_eq ?_
    ring
  · rw [hG x hx]
    funext k
    fin_cases k
    · show _ = ([torusTerm c p].map fun a => a.grad x 0).sum
      simp only [List.map_cons, List.map_nil, List.sum_cons, List.sum_nil, add_zero]
      show _ = quarticJet c 1 x.1 * 1 * cosJet 0 x.2.2
      rw [cosJet_zero]
      simp [quarticJet]
    · show _ = ([torusTerm c p].map fun a => a.grad x 1).sum
      simp only [List.map_cons, List.map_nil, List.sum_cons, List.sum_nil, add_zero]
      show _ = quarticJet c 0 x.1 * 0 * cosJet 0 x.2.2
      simp
    · show _ = ([torusTerm c p].map fun a => a.grad x 2).sum
      simp only [List.map_cons, List.map_nil, List.sum_cons, List.sum_nil, add_zero]
      show _ = quarticJet c 0 x.1 * 1 * cosJet 1 x.2.2
      rw [cosJet_one]
      simp [quarticJet]
      ring

/-! ## Cases -/

/-- Case: 8 cubic splines on the torus of the scripts; `K` is the quadrature error of the weak equation with the source of the script. -/
theorem torus_case : ∃ D, Admissible (8, 8, 8) (3, 3, 3) 5 ("clamped", "periodic", "periodic") (toroidMap (1 / 3) 1 1) true true D ∧ ∃ K, 0 ≤ K ∧ ∃ G : V3 → V3,
    l2Product (fun x => G x - D.phys1 (D.strongGrad *ᵥ D.poisson0 (fun x _ => Manufactured.toroidF (1 / 3) x)) x)
      (fun x => G x - D.phys1 (D.strongGrad *ᵥ D.poisson0 (fun x _ => Manufactured.toroidF (1 / 3) x)) x) D.S.Q (toroidMap (1 / 3) 1 1)
      ≤ 2 * (1 / (1 / 3) ^ 2 + 1 / (1 - 1 / 3) ^ 2) * (torusConst 3 / (8 : Nat) ^ 3) ^ 2 * quadVolume D (toroidMap (1 / 3) 1 1) + K := by
  obtain ⟨D, h, _⟩ := C110_toroid (n := 8) (p := 3) (by norm_num) (by norm_num) (by norm_num) (by norm_num) (by norm_num)
  obtain ⟨G, hG⟩ : ∃ G : V3 → V3, G = fun y => ((jacfwd (toroidMap (1 / 3) 1 1) y)⁻¹)ᵀ *ᵥ
      ![1 * (2 * y 0 - 4 * y 0 ^ 3) * cos (2 * π * y 2), 0, -(2 * π) * 1 * (y 0 ^ 2 - y 0 ^ 4) * sin (2 * π * y 2)] := ⟨_, rfl⟩
  obtain ⟨K, hK, hw, _⟩ := C101_consistency_error h ⟨rfl, by decide, by decide⟩ rfl (fun _ => le_rfl) (fun x _ => Manufactured.toroidF (1 / 3) x) G
  refine ⟨D, h, K, hK, G, C119_toroid (ε := 1 / 3) (R0 := 1) (c := 1) (by norm_num) (by norm_num) (by norm_num) h _ G (fun x hx => ?_) K hK hw⟩
  have hj := h.regular _ hx
  have hdet : IsUnit (jacfwd (toroidMap (1 / 3) 1 1) (toV3 x)).det := isUnit_iff_ne_zero.mpr (lt_of_lt_of_le (by norm_num) hj).ne'
  rw [hG]
  beta_reduce
  rw [mulVec_mulVec, ← transpose_mul, nonsing_inv_mul _ hdet, transpose_one, one_mulVec]
  rfl

/-- Case: the gradient on a polar sequence of the GVEC scripts' sizes, and without a polar axis. -/
example := C119_gradient torus_case.choose_spec.1 ⟨rfl, by decide, by decide, le_rfl, Or.inl rfl⟩ [torusTerm 1 3, torusTerm (1 / 4) 3]
  fun a ha => by
    rcases List.mem_cons.mp ha with rfl | ha
    · exact torusTerm_ok (by norm_num) 3
    · rw [List.mem_singleton.mp ha]; exact torusTerm_ok (by norm_num) 3

end Mrx.Props
