import Verif.Proofs.Case
import Verif.Props.Progress
import Verif.Proofs.NormBounds

/-!
# C99 continued: a relaxation reaches the requested force tolerance
-/

set_option linter.unusedSectionVars false
set_option linter.unusedVariables false

namespace Mrx.Props
open Spec Matrix DeRham

variable {T : Stepper}

/-! ## The rate of change is a cubic polynomial of the field -/

/-- The trilinear part of the rate of change. -/
noncomputable def flow (T : Stepper) (x y z : T.Field) : T.Field :=
  T.D.strongCurl *ᵥ (T.D.M1⁻¹ *ᵥ T.D.P2x1to1 (((1 + T.D.dd2)⁻¹) ^ T.gamma *ᵥ ((if T.forceFree then 1 else T.D.leray T.pinv) *ᵥ
    (T.D.M2⁻¹ *ᵥ T.D.P1x1to2 (T.D.weakCurl *ᵥ x) (T.D.P12 *ᵥ y)))) (T.D.P12 *ᵥ z))

/-- The rate of change as a function of the midpoint. -/
noncomputable def rateAt (T : Stepper) (eta : ℝ) (x : T.Field) : T.Field := flow T x x x - eta • (T.D.strongCurl *ᵥ (T.D.weakCurl *ᵥ x))

theorem iterate_mulVec {n : Nat} (A : Matrix (Fin n) (Fin n) ℝ) (k : Nat) (x : Fin n → ℝ) : (fun v => A *ᵥ v)^[k] x = A ^ k *ᵥ x := by
  induction k with
  | zero => simp
  | succ k ih => rw [Function.iterate_succ_apply', ih, pow_succ', mulVec_mulVec]

theorem curlE_eq (hn : T.newton = false) (s : T.St) : T.D.strongCurl *ᵥ T.E s = rateAt T s.eta (T.Bmid s) := by
  have hf : T.f s = (if T.forceFree then 1 else T.D.leray T.pinv) *ᵥ T.JxH s := by
    unfold Stepper.f; split_ifs <;> simp
  unfold rateAt flow Stepper.E Stepper.u
  rw [hn, if_neg (by simp), mulVec_sub, mulVec_smul]
  unfold Stepper.u0
  rw [iterate_mulVec, hf]
  rfl

section
variable {ns ps : Nat × Nat × Nat} {q : Nat} {types : String × String × String} {F : V3 → V3} {polar dirichlet : Bool}
  (h : Admissible ns ps q types F polar dirichlet T.D)
include h

theorem lin112_1 (c : ℝ) (w w' u : Fin T.D.m1 → ℝ) :
    T.D.P1x1to2 (c • w + w') u = c • T.D.P1x1to2 w u + T.D.P1x1to2 w' u :=
  C38_linear_first h .two .one .one c w w' u _ _ _ (cross_112 h _ _) (cross_112 h _ _) (cross_112 h _ _)

theorem lin112_2 (c : ℝ) (w u u' : Fin T.D.m1 → ℝ) :
    T.D.P1x1to2 w (c • u + u') = c • T.D.P1x1to2 w u + T.D.P1x1to2 w u' :=
  C38_linear_second h .two .one .one c w u u' _ _ _ (cross_112 h _ _) (cross_112 h _ _) (cross_112 h _ _)

theorem lin211_1 (c : ℝ) (w w' : Fin T.D.m2 → ℝ) (u : Fin T.D.m1 → ℝ) :
    T.D.P2x1to1 (c • w + w') u = c • T.D.P2x1to1 w u + T.D.P2x1to1 w' u :=
  C38_linear_first h .one .two .one c w w' u _ _ _ (cross_211 h _ _) (cross_211 h _ _) (cross_211 h _ _)

theorem lin211_2 (c : ℝ) (w : Fin T.D.m2 → ℝ) (u u' : Fin T.D.m1 → ℝ) :
    T.D.P2x1to1 w (c • u + u') = c • T.D.P2x1to1 w u + T.D.P2x1to1 w u' :=
  C38_linear_second h .one .two .one c w u u' _ _ _ (cross_211 h _ _) (cross_211 h _ _) (cross_211 h _ _)

theorem flow1 (c : ℝ) (x x' y z : T.Field) : flow T (c • x + x') y z = c • flow T x y z + flow T x' y z := by
  unfold flow
  simp only [mulVec_add, mulVec_smul, lin112_1 h, lin211_1 h]

theorem flow2 (c : ℝ) (x y y' z : T.Field) : flow T x (c • y + y') z = c • flow T x y z + flow T x y' z := by
  unfold flow
  simp only [mulVec_add, mulVec_smul, lin112_2 h, lin211_1 h]

theorem flow3 (c : ℝ) (x y z z' : T.Field) : flow T x y (c • z + z') = c • flow T x y z + flow T x y z' := by
  unfold flow
  simp only [mulVec_add, mulVec_smul, lin211_2 h]

theorem flow_bound : ∃ κ, 0 ≤ κ ∧ ∀ x y z, T.D.norm2 (flow T x y z) ≤ κ * (T.D.norm2 x * T.D.norm2 y * T.D.norm2 z) := by
  obtain ⟨c1, hc1, b1⟩ := bilin_bound (fun x y : T.Field => ((1 + T.D.dd2)⁻¹) ^ T.gamma *ᵥ
    ((if T.forceFree then 1 else T.D.leray T.pinv) *ᵥ (T.D.M2⁻¹ *ᵥ T.D.P1x1to2 (T.D.weakCurl *ᵥ x) (T.D.P12 *ᵥ y))))
    (fun c w w' u => by simp only [mulVec_add, mulVec_smul, lin112_1 h])
    (fun c w u u' => by simp only [mulVec_add, mulVec_smul, lin112_2 h])
  obtain ⟨c2, hc2, b2⟩ := bilin_bound (fun x z : T.Field => T.D.strongCurl *ᵥ (T.D.M1⁻¹ *ᵥ T.D.P2x1to1 x (T.D.P12 *ᵥ z)))
    (fun c w w' u => by simp only [mulVec_add, mulVec_smul, lin211_1 h])
    (fun c w u u' => by simp only [mulVec_add, mulVec_smul, lin211_2 h])
  obtain ⟨cu, hcu, bu⟩ := quad_upper T.D.M2
  obtain ⟨cl, hcl, bl⟩ := quad_lower (C31_mass_matrices_definite h).2.2.1
  refine ⟨cu * (c2 * (c1 * cl * cl) * cl), by positivity, fun x y z => ?_⟩
  have e1 : ‖flow T x y z‖ ≤ c2 * (c1 * ‖x‖ * ‖y‖) * ‖z‖ := by
    refine (b2 _ _).trans ?_
    exact mul_le_mul_of_nonneg_right (mul_le_mul_of_nonneg_left (b1 _ _) hc2) (norm_nonneg _)
  have lx : ‖x‖ ≤ cl * T.D.norm2 x := bl x
  have ly : ‖y‖ ≤ cl * T.D.norm2 y := bl y
  have lz : ‖z‖ ≤ cl * T.D.norm2 z := bl z
  refine (bu _).trans ?_
  calc cu * ‖flow T x y z‖ ≤ cu * (c2 * (c1 * ‖x‖ * ‖y‖) * ‖z‖) := mul_le_mul_of_nonneg_left e1 hcu.le
    _ ≤ cu * (c2 * (c1 * (cl * T.D.norm2 x) * (cl * T.D.norm2 y)) * (cl * T.D.norm2 z)) := by
      have n1 := norm2_nonneg T.D x
      have n2 := norm2_nonneg T.D y
      have n3 := norm2_nonneg T.D z
      gcongr
    _ = _ := by ring

theorem linear_bound (A : Matrix (Fin T.D.m2) (Fin T.D.m2) ℝ) : ∃ κ, 0 < κ ∧ ∀ x, T.D.norm2 (A *ᵥ x) ≤ κ * T.D.norm2 x := by
  obtain ⟨cu, hcu, bu⟩ := quad_upper (Aᵀ * T.D.M2 * A)
  obtain ⟨cl, hcl, bl⟩ := quad_lower (C31_mass_matrices_definite h).2.2.1
  refine ⟨cu * cl, by positivity, fun x => ?_⟩
  have e : T.D.norm2 (A *ᵥ x) = √(x ⬝ᵥ (Aᵀ * T.D.M2 * A) *ᵥ x) := by
    unfold DeRham.norm2
    congr 1
    rw [← mulVec_mulVec, ← mulVec_mulVec, dotProduct_mulVec x, vecMul_transpose]
  rw [e, mul_assoc cu]
  exact (bu x).trans (mul_le_mul_of_nonneg_left (bl x) hcu.le)

/-- **C99** the rate of change is at most `κ |B|^3 + κ |eta| |B|`, with a constant that depends on the discretisation and on the options of the
stepper only. -/
theorem C99_rate_bound (hn : T.newton = false) : ∃ κ, 0 < κ ∧ ∀ s : T.St, T.rate s ≤ κ * T.D.norm2 s.Bn ^ 3 + κ * |s.eta| * T.D.norm2 s.Bn := by
  obtain ⟨κ1, k1, b1⟩ := flow_bound h
  obtain ⟨κ2, k2, b2⟩ := linear_bound h (T.D.strongCurl * T.D.weakCurl)
  refine ⟨κ1 + κ2, by linarith, fun s => ?_⟩
  unfold Stepper.rate
  rw [curlE_eq hn]
  have e : T.Bmid ({ s with Bguess := s.Bn } : T.St) = s.Bn := by
    show (1 / 2 : ℝ) • (s.Bn + s.Bn) = _
    rw [← two_smul ℝ s.Bn, smul_smul]; norm_num
  rw [e]
  unfold rateAt
  refine (norm2_sub_le h _ _).trans ?_
  rw [norm2_smul', mulVec_mulVec]
  have p1 := b1 s.Bn s.Bn s.Bn
  have p2 := mul_le_mul_of_nonneg_left (b2 s.Bn) (abs_nonneg s.eta)
  have n := norm2_nonneg T.D s.Bn
  have a1 : 0 ≤ κ2 * T.D.norm2 s.Bn ^ 3 := by positivity
  have a2 : 0 ≤ κ1 * |s.eta| * T.D.norm2 s.Bn := by positivity
  show T.D.norm2 (flow T s.Bn s.Bn s.Bn) + |s.eta| * _ ≤ _
  nlinarith

/-- On every ball the rate of change is bounded and Lipschitz. -/
theorem rate_lipschitz (eta R : ℝ) : ∃ C L, 0 < C ∧ 0 < L ∧ (∀ x, T.D.norm2 x ≤ R → T.D.norm2 (rateAt T eta x) ≤ C) ∧
    ∀ x y, T.D.norm2 x ≤ R → T.D.norm2 y ≤ R → T.D.norm2 (rateAt T eta x - rateAt T eta y) ≤ L * T.D.norm2 (x - y) := by
  obtain ⟨κ1, k1, b1⟩ := flow_bound h
  obtain ⟨κ2, k2, b2⟩ := linear_bound h (T.D.strongCurl * T.D.weakCurl)
  have R0 : ∀ x, T.D.norm2 x ≤ R → 0 ≤ R := fun x hx => (norm2_nonneg _ x).trans hx
  refine ⟨κ1 * |R| ^ 3 + |eta| * (κ2 * |R|) + 1, 3 * κ1 * |R| ^ 2 + |eta| * κ2 + 1, by positivity, by positivity, ?_, ?_⟩
  · intro x hx
    unfold rateAt
    refine (norm2_sub_le h _ _).trans ?_
    rw [norm2_smul', mulVec_mulVec, abs_of_nonneg (R0 x hx)]
    have n := norm2_nonneg T.D x
    have p1 : T.D.norm2 (flow T x x x) ≤ κ1 * R ^ 3 := by
      refine (b1 x x x).trans ?_
      have : T.D.norm2 x * T.D.norm2 x * T.D.norm2 x ≤ R * R * R := by
        have := R0 x hx
        gcongr
      calc _ ≤ κ1 * (R * R * R) := mul_le_mul_of_nonneg_left this k1
        _ = _ := by ring
    have p2 := mul_le_mul_of_nonneg_left ((b2 x).trans (mul_le_mul_of_nonneg_left hx k2.le)) (abs_nonneg eta)
    linarith
  · intro x y hx hy
    have rn := R0 x hx
    rw [abs_of_nonneg rn]
    have t1 : ∀ a b c d : T.Field, flow T (a - b) c d = flow T a c d - flow T b c d := fun a b c d => by
      have := flow1 h (-1) b a c d
      rw [neg_one_smul, neg_one_smul, neg_add_eq_sub, neg_add_eq_sub] at this
      exact this
    have t2 : ∀ a b c d : T.Field, flow T c (a - b) d = flow T c a d - flow T c b d := fun a b c d => by
      have := flow2 h (-1) c b a d
      rw [neg_one_smul, neg_one_smul, neg_add_eq_sub, neg_add_eq_sub] at this
      exact this
    have t3 : ∀ a b c d : T.Field, flow T c d (a - b) = flow T c d a - flow T c d b := fun a b c d => by
      have := flow3 h (-1) c d b a
      rw [neg_one_smul, neg_one_smul, neg_add_eq_sub, neg_add_eq_sub] at this
      exact this
    have e : rateAt T eta x - rateAt T eta y = (flow T (x - y) x x + flow T y (x - y) x + flow T y y (x - y)) -
        eta • ((T.D.strongCurl * T.D.weakCurl) *ᵥ (x - y)) := by
      rw [t1, t2, t3, mulVec_sub, smul_sub]
      unfold rateAt
      simp only [mulVec_mulVec]
      abel
    rw [e]
    refine (norm2_sub_le h _ _).trans ?_
    rw [norm2_smul']
    have nd := norm2_nonneg T.D (x - y)
    have nx := norm2_nonneg T.D x
    have ny := norm2_nonneg T.D y
    have q1 : T.D.norm2 (flow T (x - y) x x) ≤ κ1 * R ^ 2 * T.D.norm2 (x - y) := by
      refine (b1 _ _ _).trans ?_
      have : T.D.norm2 (x - y) * T.D.norm2 x * T.D.norm2 x ≤ T.D.norm2 (x - y) * R * R := by gcongr
      calc _ ≤ κ1 * (T.D.norm2 (x - y) * R * R) := mul_le_mul_of_nonneg_left this k1
        _ = _ := by ring
    have q2 : T.D.norm2 (flow T y (x - y) x) ≤ κ1 * R ^ 2 * T.D.norm2 (x - y) := by
      refine (b1 _ _ _).trans ?_
      have : T.D.norm2 y * T.D.norm2 (x - y) * T.D.norm2 x ≤ R * T.D.norm2 (x - y) * R := by gcongr
      calc _ ≤ κ1 * (R * T.D.norm2 (x - y) * R) := mul_le_mul_of_nonneg_left this k1
        _ = _ := by ring
    have q3 : T.D.norm2 (flow T y y (x - y)) ≤ κ1 * R ^ 2 * T.D.norm2 (x - y) := by
      refine (b1 _ _ _).trans ?_
      have : T.D.norm2 y * T.D.norm2 y * T.D.norm2 (x - y) ≤ R * R * T.D.norm2 (x - y) := by gcongr
      calc _ ≤ κ1 * (R * R * T.D.norm2 (x - y)) := mul_le_mul_of_nonneg_left this k1
        _ = _ := by ring
    have q4 := mul_le_mul_of_nonneg_left (b2 (x - y)) (abs_nonneg eta)
    have s1 := norm2_triangle h (flow T (x - y) x x + flow T y (x - y) x) (flow T y y (x - y))
    have s2 := norm2_triangle h (flow T (x - y) x x) (flow T y (x - y) x)
    linarith

/-! ## The Picard solver converges for small time steps -/

/-- For every bound on the field there is a time step below which the Picard solver, started from the field, gains a factor 2 per iteration; for
a time step smaller by the factor `ρ`, it gains `ρ / 2` per iteration. -/
theorem picard_geometric (hn : T.newton = false) (eta R : ℝ) : ∃ δ, 0 < δ ∧ ∀ (s : T.St) (ρ : ℝ), ρ ≤ 1 → s.eta = eta → s.Bguess = s.Bn →
    T.D.norm2 s.Bn ≤ R → 0 ≤ s.dt → s.dt ≤ δ * ρ → ∀ k : Nat,
      T.D.norm2 (((midpointResiduum T.update)^[k] s).Bguess - s.Bn) ≤ 1 ∧
      ((midpointResiduum T.update)^[k + 1] s).picardResiduum =
        .fin (T.D.norm2 (((midpointResiduum T.update)^[k + 1] s).Bguess - ((midpointResiduum T.update)^[k] s).Bguess)) ∧
      T.D.norm2 (((midpointResiduum T.update)^[k + 1] s).Bguess - ((midpointResiduum T.update)^[k] s).Bguess) ≤ ρ * (ρ / 2) ^ k := by
  obtain ⟨C, L, hC, hL, bC, bL⟩ := rate_lipschitz h eta (R + 1)
  refine ⟨min (1 / C) (1 / L), by positivity, ?_⟩
  intro s ρ hρ1 he hg hB hdt hd
  have hρ : 0 ≤ ρ := by
    by_contra hneg
    push Not at hneg
    have : min (1 / C) (1 / L) * ρ < 0 := mul_neg_of_pos_of_neg (by positivity) hneg
    linarith
  have d1 : s.dt * C ≤ ρ := by
    have := mul_le_mul_of_nonneg_right (hd.trans (mul_le_mul_of_nonneg_right (min_le_left _ _) hρ)) hC.le
    rwa [mul_right_comm, one_div, inv_mul_cancel₀ hC.ne', one_mul] at this
  have d2 : s.dt * L ≤ ρ := by
    have := mul_le_mul_of_nonneg_right (hd.trans (mul_le_mul_of_nonneg_right (min_le_right _ _) hρ)) hL.le
    rwa [mul_right_comm, one_div, inv_mul_cancel₀ hL.ne', one_mul] at this
  obtain ⟨X, hXdef⟩ : ∃ X : Nat → T.Field, ∀ k, X k = ((midpointResiduum T.update)^[k] s).Bguess := ⟨_, fun k => rfl⟩
  have fr := fun k => iterate_frame T.update k s
  have X0 : X 0 = s.Bn := by rw [hXdef]; exact hg
  have Xs : ∀ k, X (k + 1) = s.Bn + s.dt • rateAt T eta ((1 / 2 : ℝ) • (X k + s.Bn)) := by
    intro k
    rw [hXdef, Function.iterate_succ_apply']
    show T.Bnext _ = _
    unfold Stepper.Bnext
    rw [curlE_eq hn, (fr k).1, (fr k).2.1, (fr k).2.2.1, he]
    unfold Stepper.Bmid
    rw [(fr k).1, ← hXdef]
  have res : ∀ k, ((midpointResiduum T.update)^[k + 1] s).picardResiduum = .fin (T.D.norm2 (X (k + 1) - X k)) := by
    intro k
    rw [hXdef, hXdef, Function.iterate_succ_apply']
    rfl
  have near : ∀ k, T.D.norm2 (X k - s.Bn) ≤ 1 ∧ T.D.norm2 ((1 / 2 : ℝ) • (X k + s.Bn)) ≤ R + 1 := by
    have mid : ∀ x, T.D.norm2 (x - s.Bn) ≤ 1 → T.D.norm2 ((1 / 2 : ℝ) • (x + s.Bn)) ≤ R + 1 := by
      intro x hx
      have e : (1 / 2 : ℝ) • (x + s.Bn) = (1 / 2 : ℝ) • (x - s.Bn) + s.Bn := by
        ext i; simp only [Pi.smul_apply, Pi.add_apply, Pi.sub_apply, smul_eq_mul]; ring
      rw [e]
      have t := norm2_triangle h ((1 / 2 : ℝ) • (x - s.Bn)) s.Bn
      rw [norm2_smul', abs_of_pos (by norm_num : (0 : ℝ) < 1 / 2)] at t
      linarith
    intro k
    induction k with
    | zero =>
      have z : T.D.norm2 (X 0 - s.Bn) ≤ 1 := by rw [X0, sub_self]; simp [DeRham.norm2]
      exact ⟨z, mid _ z⟩
    | succ k ih =>
      have z : T.D.norm2 (X (k + 1) - s.Bn) ≤ 1 := by
        rw [Xs, add_sub_cancel_left, norm2_smul', abs_of_nonneg hdt]
        exact (mul_le_mul_of_nonneg_left (bC _ ih.2) hdt).trans (d1.trans hρ1)
      exact ⟨z, mid _ z⟩
  have geo : ∀ k, T.D.norm2 (X (k + 1) - X k) ≤ ρ * (ρ / 2) ^ k := by
    intro k
    induction k with
    | zero =>
      rw [pow_zero, mul_one, X0]
      rw [Xs, add_sub_cancel_left, norm2_smul', abs_of_nonneg hdt]
      exact (mul_le_mul_of_nonneg_left (bC _ (near 0).2) hdt).trans d1
    | succ k ih =>
      have e : X (k + 1 + 1) - X (k + 1) =
          s.dt • (rateAt T eta ((1 / 2 : ℝ) • (X (k + 1) + s.Bn)) - rateAt T eta ((1 / 2 : ℝ) • (X k + s.Bn))) := by
        refine (congrArg₂ (· - ·) (Xs (k + 1)) (Xs k)).trans ?_
        rw [smul_sub]
        abel
      have e2 : (1 / 2 : ℝ) • (X (k + 1) + s.Bn) - (1 / 2 : ℝ) • (X k + s.Bn) = (1 / 2 : ℝ) • (X (k + 1) - X k) := by
        rw [← smul_sub]; congr 1; abel
      rw [e, norm2_smul', abs_of_nonneg hdt]
      have b := bL _ _ (near (k + 1)).2 (near k).2
      rw [e2, norm2_smul', abs_of_pos (by norm_num : (0 : ℝ) < 1 / 2)] at b
      have nn := norm2_nonneg T.D (X (k + 1) - X k)
      calc _ ≤ s.dt * (L * (1 / 2 * T.D.norm2 (X (k + 1) - X k))) := mul_le_mul_of_nonneg_left b hdt
        _ = (s.dt * L) * (1 / 2 * T.D.norm2 (X (k + 1) - X k)) := by ring
        _ ≤ ρ * (1 / 2 * T.D.norm2 (X (k + 1) - X k)) := mul_le_mul_of_nonneg_right d2 (by positivity)
        _ ≤ ρ * (1 / 2 * (ρ * (ρ / 2) ^ k)) := mul_le_mul_of_nonneg_left (by linarith) hρ
        _ = _ := by rw [pow_succ]; ring
  intro k
  rw [← hXdef, ← hXdef]
  exact ⟨(near k).1, res k, geo k⟩

/-- **C99** the Picard solver of the time stepper converges: for every bound on the field there is a `δ` such that every step with `dt <= δ ρ`,
`ρ <= 1`, is accepted with at most `n + 1` evaluations, if `ρ (ρ / 2)^n` is at most the tolerance and `n + 1` at most the iteration limit. So with
`ρ = 1` the time step does not depend on the tolerance if `log2 (1 / tol) + 1` evaluations are allowed, and two evaluations suffice for
`dt <= δ sqrt(tol)`. -/
theorem C99_picard_accepts (hn : T.newton = false) (eta R : ℝ) : ∃ δ, 0 < δ ∧ ∀ (cfg : RelaxConfig) (strength : ℝ) (dB : V3 → V3)
    (clock : Nat → ℝ) (s : T.St) (ρ : ℝ) (n : Nat), ρ ≤ 1 → s.eta = eta → s.Bguess = s.Bn → T.D.norm2 s.Bn ≤ R → 0 ≤ s.dt → s.dt ≤ δ * ρ →
    ρ * (ρ / 2) ^ n ≤ cfg.solverTol → (n : Int) + 1 ≤ cfg.solverMaxit →
    ¬ rejected cfg ((T.env strength dB clock).step cfg s) ∧ ((T.env strength dB clock).step cfg s).picardIterations ≤ n + 1 := by
  obtain ⟨δ, hδ, key⟩ := picard_geometric h hn eta R
  refine ⟨δ, hδ, ?_⟩
  intro cfg strength dB clock s ρ n hρ he hg hB hdt hd htol hmax
  obtain ⟨s0, hs0⟩ : ∃ s0 : T.St, s0 = { s with picardResiduum := .fin 1, picardIterations := 0 } := ⟨_, rfl⟩
  have K := key s0 ρ hρ (by rw [hs0]; exact he) (by rw [hs0]; exact hg) (by rw [hs0]; exact hB) (by rw [hs0]; exact hdt) (by rw [hs0]; exact hd)
  obtain ⟨k, hk, hc, hj⟩ := step_iterate T.update cfg.solverTol cfg.solverMaxit s
  rw [← hs0] at hk hj
  have hst : (T.env strength dB clock).step cfg s = (midpointResiduum T.update)^[k] s0 := hk
  have its : ((midpointResiduum T.update)^[k] s0).picardIterations = k := by
    rw [(iterate_frame T.update k s0).2.2.2.2, hs0]; simp
  have small : ∃ x, ((midpointResiduum T.update)^[n + 1] s0).picardResiduum = .fin x ∧ x ≤ cfg.solverTol :=
    ⟨_, (K n).2.1, (K n).2.2.trans htol⟩
  have kn : k ≤ n + 1 := by
    by_contra hlt
    push Not at hlt
    obtain ⟨-, h2⟩ := hj (n + 1) hlt
    obtain ⟨x, hx, hx'⟩ := small
    rw [hx] at h2
    rcases h2 with h2 | h2
    · exact absurd (show cfg.solverTol < x from h2) (not_lt.2 hx')
    · exact h2
  rw [hst]
  refine ⟨?_, by rw [its]; exact_mod_cast kn⟩
  rw [C49_accepted_iff]
  have isfin : ∃ x, ((midpointResiduum T.update)^[k] s0).picardResiduum = .fin x := by
    rcases Nat.eq_zero_or_pos k with h0 | h0
    · exact ⟨1, by rw [h0, hs0]; rfl⟩
    · obtain ⟨m, rfl⟩ : ∃ m, k = m + 1 := ⟨k - 1, by omega⟩
      exact ⟨_, (K m).2.1⟩
  rcases Nat.lt_or_ge k (n + 1) with hlt | hge
  · obtain ⟨x, hx⟩ := isfin
    refine ⟨x, hx, ?_⟩
    by_contra hgt
    push Not at hgt
    refine hc ?_
    rw [hk]
    refine ⟨by rw [its]; omega, ?_⟩
    rw [hx]
    exact Or.inl hgt
  · obtain rfl : k = n + 1 := by omega
    exact small


/-! ## Runs -/

end

section
variable (cfg : RelaxConfig) (strength : ℝ) (dB : V3 → V3) (clock : Nat → ℝ) (start : ℝ)

/-- Without perturbation the guess is the field, at every iteration. -/
theorem guess_eq (hp : cfg.NoPerturbation) (s : T.St) (t : Trace T.Field) (hg : s.Bguess = s.Bn) (k : Nat) :
    (relaxAfter cfg (T.env strength dB clock) start s t k).state.Bguess = (relaxAfter cfg (T.env strength dB clock) start s t k).state.Bn := by
  induction k with
  | zero => exact hg
  | succ k ih =>
    rw [relaxAfter]
    generalize relaxAfter cfg (T.env strength dB clock) start s t k = l at ih
    by_cases hst : l.stopped = true
    · have e : relaxIteration cfg (T.env strength dB clock) start (k + 1) l = l := by unfold relaxIteration; rw [if_pos hst]
      rw [e, ih]
    have hst' : l.stopped = false := by simpa using hst
    by_cases hr : rejected cfg ((T.env strength dB clock).step cfg l.state)
    · obtain ⟨a, b, -⟩ := C49_rejected_step cfg (T.env strength dB clock) start (k + 1) l hst' hr
      rw [a, b]
    · obtain ⟨a, b, -⟩ := C49_accepted_step cfg (T.env strength dB clock) start (k + 1) l hst' hr (hp (k + 1) (by omega))
      rw [a, b]

/-- If every step with `dt <= δ` is accepted with fewer than `solver_critit` iterations, then `dt` stays above a bound. -/
theorem dt_lower (hp : cfg.NoPerturbation) (hf : 1 ≤ cfg.dtFactor) (s : T.St) (t : Trace T.Field) (hdt : 0 < s.dt) (δ : ℝ) (hδ : 0 < δ)
    (k : Nat) (hacc : ∀ i < k, (relaxAfter cfg (T.env strength dB clock) start s t i).stopped = false →
      (relaxAfter cfg (T.env strength dB clock) start s t i).state.dt ≤ δ →
      ¬ rejected cfg ((T.env strength dB clock).step cfg (relaxAfter cfg (T.env strength dB clock) start s t i).state) ∧
      ((T.env strength dB clock).step cfg (relaxAfter cfg (T.env strength dB clock) start s t i).state).picardIterations < cfg.solverCritit) :
    min s.dt (δ / max 2 (cfg.dtFactor ^ 2)) ≤ (relaxAfter cfg (T.env strength dB clock) start s t k).state.dt := by
  have f2 : 1 ≤ cfg.dtFactor ^ 2 := one_le_pow₀ hf
  have m0 : 0 < max 2 (cfg.dtFactor ^ 2) := lt_of_lt_of_le two_pos (le_max_left _ _)
  induction k with
  | zero => exact min_le_left _ _
  | succ k ih =>
    have ih' := ih (fun i hi => hacc i (by omega))
    have pos := (C49_dt_positive cfg (T.env strength dB clock) start s t hdt (by linarith) k).1
    have ac := hacc k (by omega)
    rw [relaxAfter]
    generalize relaxAfter cfg (T.env strength dB clock) start s t k = l at ih' ac pos
    by_cases hst : l.stopped = true
    · have e : relaxIteration cfg (T.env strength dB clock) start (k + 1) l = l := by unfold relaxIteration; rw [if_pos hst]
      rw [e]; exact ih'
    have hst' : l.stopped = false := by simpa using hst
    have big : δ < l.state.dt → ∀ d, 0 < d → d ≤ max 2 (cfg.dtFactor ^ 2) → min s.dt (δ / max 2 (cfg.dtFactor ^ 2)) ≤ l.state.dt / d := by
      intro hb d hd hdm
      refine (min_le_right _ _).trans ?_
      rw [div_le_div_iff₀ m0 hd]
      exact mul_le_mul hb.le hdm hd.le pos.le
    by_cases hr : rejected cfg ((T.env strength dB clock).step cfg l.state)
    · rw [(C49_rejected_step cfg (T.env strength dB clock) start (k + 1) l hst' hr).2.2.1]
      have hb : δ < l.state.dt := by
        by_contra hb
        exact (ac hst' (not_lt.1 hb)).1 hr
      exact big hb 2 two_pos (le_max_left _ _)
    · rw [(C49_accepted_step cfg (T.env strength dB clock) start (k + 1) l hst' hr (hp (k + 1) (by omega))).2.2.2]
      split_ifs with hcr
      · exact ih'.trans (le_mul_of_one_le_right pos.le hf)
      · have hb : δ < l.state.dt := by
          by_contra hb
          exact hcr (ac hst' (not_lt.1 hb)).2
        exact big hb _ (by linarith) (le_max_right _ _)

/-- **C99** the time step does not collapse: if the field never changes faster than `C`, then `dt` never falls below the smaller of its initial value
and `tol / (C max(2, dt_factor^2))` (`solver_critit >= 2`, `dt_factor >= 1`, no perturbation), for every choice of the velocity. -/
theorem C99_dt_bound (hm : 0 < cfg.solverMaxit) (ht : 0 < cfg.solverTol) (ht1 : cfg.solverTol < 1) (hcrit : 2 ≤ cfg.solverCritit)
    (hf : 1 ≤ cfg.dtFactor) (hp : cfg.NoPerturbation) (s : T.St) (t : Trace T.Field) (hg : s.Bguess = s.Bn) (hdt : 0 < s.dt) (C : ℝ)
    (hC : 0 < C) (k : Nat) (hrate : ∀ i < k, T.rate (relaxAfter cfg (T.env strength dB clock) start s t i).state ≤ C) :
    min s.dt (cfg.solverTol / (C * max 2 (cfg.dtFactor ^ 2))) ≤ (relaxAfter cfg (T.env strength dB clock) start s t k).state.dt := by
  have := dt_lower cfg strength dB clock start hp hf s t hdt (cfg.solverTol / C) (by positivity) k (fun i hi hst hd => by
    have pos := (C49_dt_positive cfg (T.env strength dB clock) start s t hdt (by linarith) i).1
    have hs : |(relaxAfter cfg (T.env strength dB clock) start s t i).state.dt| *
        T.rate (relaxAfter cfg (T.env strength dB clock) start s t i).state ≤ cfg.solverTol := by
      rw [abs_of_pos pos]
      refine (mul_le_mul_of_nonneg_left (hrate i hi) pos.le).trans ?_
      rwa [le_div_iff₀ hC] at hd
    have ge := guess_eq cfg strength dB clock start hp s t hg i
    refine ⟨small_not_rejected cfg strength dB clock hm _ ge hs, ?_⟩
    have := (C99_small_step cfg.solverTol cfg.solverMaxit hm ht1 _ ge hs).1
    have e : ((T.env strength dB clock).step cfg (relaxAfter cfg (T.env strength dB clock) start s t i).state).picardIterations = 1 := this
    rw [e]
    omega)
  rwa [div_div] at this

open Classical in
/-- The iterations among `1..k` whose step is accepted (numbered from 0). -/
noncomputable def acceptedSet (cfg : RelaxConfig) (env : RelaxEnv T.Field (Matrix (Fin T.D.m2) (Fin T.D.m2) ℝ)) (start : ℝ) (s : T.St)
    (t : Trace T.Field) (k : Nat) : Finset Nat :=
  (Finset.range k).filter fun i => ¬ rejected cfg (env.step cfg (relaxAfter cfg env start s t i).state)

/-- **C99** steps are accepted regularly: in `k` iterations that do not stop, with `A` accepted steps, `dt_k 2^(k - A) <= dt_0 dt_factor^A`. So as
long as `dt` stays above a bound, the number of accepted steps grows in proportion to the number of iterations. -/
theorem C99_accepted_share (hp : cfg.NoPerturbation) (hf : 1 ≤ cfg.dtFactor) (s : T.St) (t : Trace T.Field) (hdt : 0 < s.dt) (k : Nat)
    (hst : ∀ i < k, (relaxAfter cfg (T.env strength dB clock) start s t i).stopped = false) :
    (relaxAfter cfg (T.env strength dB clock) start s t k).state.dt * 2 ^ (k - (acceptedSet cfg (T.env strength dB clock) start s t k).card) ≤
      s.dt * cfg.dtFactor ^ (acceptedSet cfg (T.env strength dB clock) start s t k).card ∧
    (acceptedSet cfg (T.env strength dB clock) start s t k).card ≤ k := by
  classical
  have f2 : 1 ≤ cfg.dtFactor ^ 2 := one_le_pow₀ hf
  induction k with
  | zero => simp [acceptedSet]; exact le_rfl
  | succ k ih =>
    obtain ⟨ih1, ih2⟩ := ih (fun i hi => hst i (by omega))
    have pos := (C49_dt_positive cfg (T.env strength dB clock) start s t hdt (by linarith) k).1
    have hs := hst k (by omega)
    have e1 : relaxAfter cfg (T.env strength dB clock) start s t (k + 1) =
          relaxIteration cfg (T.env strength dB clock) start (k + 1) (relaxAfter cfg (T.env strength dB clock) start s t k) := rfl
    by_cases hr : rejected cfg ((T.env strength dB clock).step cfg (relaxAfter cfg (T.env strength dB clock) start s t k).state)
    · have ea : acceptedSet cfg (T.env strength dB clock) start s t (k + 1) = acceptedSet cfg (T.env strength dB clock) start s t k := by
        unfold acceptedSet
        rw [Finset.range_add_one, Finset.filter_insert, if_neg (not_not.2 hr)]
      rw [ea, e1, (C49_rejected_step cfg (T.env strength dB clock) start (k + 1) _ hs hr).2.2.1]
      refine ⟨?_, by omega⟩
      rw [Nat.succ_sub ih2, pow_succ]
      calc _ = (relaxAfter cfg (T.env strength dB clock) start s t k).state.dt *
            2 ^ (k - (acceptedSet cfg (T.env strength dB clock) start s t k).card) := by ring
        _ ≤ _ := ih1
    · have ea : (acceptedSet cfg (T.env strength dB clock) start s t (k + 1)).card =
          (acceptedSet cfg (T.env strength dB clock) start s t k).card + 1 := by
        unfold acceptedSet
        rw [Finset.range_add_one, Finset.filter_insert, if_pos hr, Finset.card_insert_of_notMem (by simp)]
      rw [ea, e1, (C49_accepted_step cfg (T.env strength dB clock) start (k + 1) _ hs hr (hp (k + 1) (by omega))).2.2.2]
      refine ⟨?_, by omega⟩
      rw [Nat.add_sub_add_right, pow_succ cfg.dtFactor (Finset.card _), ← mul_assoc]
      have le : (if ((T.env strength dB clock).step cfg (relaxAfter cfg (T.env strength dB clock) start s t k).state).picardIterations <
          cfg.solverCritit then (relaxAfter cfg (T.env strength dB clock) start s t k).state.dt * cfg.dtFactor
          else (relaxAfter cfg (T.env strength dB clock) start s t k).state.dt / cfg.dtFactor ^ 2) ≤
          (relaxAfter cfg (T.env strength dB clock) start s t k).state.dt * cfg.dtFactor := by
        split_ifs
        · exact le_rfl
        · exact (div_le_self pos.le f2).trans (le_mul_of_one_le_right pos.le hf)
      have p2 : (0 : ℝ) ≤ 2 ^ (k - (acceptedSet cfg (T.env strength dB clock) start s t k).card) := by positivity
      calc _ ≤ (relaxAfter cfg (T.env strength dB clock) start s t k).state.dt * cfg.dtFactor *
            2 ^ (k - (acceptedSet cfg (T.env strength dB clock) start s t k).card) := mul_le_mul_of_nonneg_right le p2
        _ = ((relaxAfter cfg (T.env strength dB clock) start s t k).state.dt *
            2 ^ (k - (acceptedSet cfg (T.env strength dB clock) start s t k).card)) * cfg.dtFactor := by ring
        _ ≤ _ := mul_le_mul_of_nonneg_right ih1 (by linarith)

end

/-- **C99** the condition on `solver_critit` is needed: with `solver_critit <= 1` every executed iteration of every run (whatever the numerical
computations return) divides `dt` by at least `q = min(2, dt_factor^2)`, so that with `dt_factor > 1` the time the run covers is at most
`dt_0 q / (q - 1)`, however long it runs. -/
theorem C99_small_critit {V H : Type} (cfg : RelaxConfig) (env : RelaxEnv V H) (start : ℝ) (hm : 0 < cfg.solverMaxit) (ht1 : cfg.solverTol < 1)
    (hcrit : cfg.solverCritit ≤ 1) (hf : 1 < cfg.dtFactor) (s : State V H) (t : Trace V) (hdt : 0 < s.dt) (k : Nat)
    (hst : ∀ i < k, (relaxAfter cfg env start s t i).stopped = false) :
    (relaxAfter cfg env start s t k).state.dt ≤ s.dt / (min 2 (cfg.dtFactor ^ 2)) ^ k ∧
    ∑ i ∈ Finset.range k, (relaxAfter cfg env start s t i).state.dt ≤
      s.dt * min 2 (cfg.dtFactor ^ 2) / (min 2 (cfg.dtFactor ^ 2) - 1) := by
  have f2 : 1 < cfg.dtFactor ^ 2 := one_lt_pow₀ hf two_ne_zero
  obtain ⟨q, hq⟩ : ∃ q, q = min 2 (cfg.dtFactor ^ 2) := ⟨_, rfl⟩
  have q1 : 1 < q := by rw [hq]; exact lt_min (by norm_num) f2
  have q0 : 0 < q := by linarith
  rw [← hq]
  have step1 : ∀ i < k, (relaxAfter cfg env start s t (i + 1)).state.dt ≤ (relaxAfter cfg env start s t i).state.dt / q := by
    intro i hi
    have pos := (C49_dt_positive cfg env start s t hdt (by linarith) i).1
    have hs := hst i hi
    rw [relaxAfter]
    generalize relaxAfter cfg env start s t i = l at pos hs
    by_cases hr : rejected cfg (env.step cfg l.state)
    · rw [(C49_rejected_step cfg env start (i + 1) l hs hr).2.2.1]
      exact div_le_div_of_nonneg_left pos.le q0 (by rw [hq]; exact min_le_left _ _)
    · have its : ¬ (env.step cfg l.state).picardIterations < cfg.solverCritit := by
        obtain ⟨j, hj, hc, -⟩ := step_iterate env.upd cfg.solverTol cfg.solverMaxit l.state
        have e : (env.step cfg l.state).picardIterations = j := by
          show (step env.upd cfg.solverTol cfg.solverMaxit l.state).picardIterations = _
          rw [hj, (iterate_frame env.upd j _).2.2.2.2]; simp
        have j0 : 0 < j := by
          rcases Nat.eq_zero_or_pos j with h0 | h0
          · subst h0
            refine absurd ?_ hc
            rw [hj]
            exact ⟨hm, Or.inl ht1⟩
          · exact h0
        omega
      rw [(relaxIteration_accept cfg env start (i + 1) l hs hr).1]
      have fr := step_frame cfg env l.state
      have e : (acceptState cfg env (i + 1) (env.step cfg l.state)).dt = l.state.dt / cfg.dtFactor ^ 2 := by
        unfold acceptState
        dsimp only [State.updateDt, State.updateBn, State.updateHessian]
        rw [if_neg]
        · split_ifs <;> exact congrArg (· / cfg.dtFactor ^ 2) fr.2.1
        · split_ifs <;> exact its
      rw [e]
      exact div_le_div_of_nonneg_left pos.le q0 (by rw [hq]; exact min_le_right _ _)
  have all : ∀ i ≤ k, (relaxAfter cfg env start s t i).state.dt ≤ s.dt / q ^ i := by
    intro i hi
    induction i with
    | zero => rw [pow_zero, div_one]; exact le_rfl
    | succ i ih =>
      refine (step1 i hi).trans ?_
      rw [pow_succ, ← div_div]
      exact div_le_div_of_nonneg_right (ih (by omega)) q0.le
  refine ⟨all k le_rfl, ?_⟩
  have sumb : ∀ n ≤ k, ∑ i ∈ Finset.range n, (relaxAfter cfg env start s t i).state.dt ≤ s.dt * q / (q - 1) * (1 - 1 / q ^ n) := by
    intro n hn
    induction n with
    | zero => simp
    | succ n ih =>
      rw [Finset.sum_range_succ]
      have a := ih (by omega)
      have b := all n (by omega)
      have c : s.dt * q / (q - 1) * (1 - 1 / q ^ n) + s.dt / q ^ n = s.dt * q / (q - 1) * (1 - 1 / q ^ (n + 1)) := by
        have : q - 1 ≠ 0 := by linarith
        have : q ^ n ≠ 0 := by positivity
        rw [pow_succ]
        field_simp
        ring
      linarith
  refine (sumb k le_rfl).trans ?_
  refine mul_le_of_le_one_right (div_nonneg (by positivity) (by linarith)) ?_
  have : 0 < 1 / q ^ k := by positivity
  linarith

/-! ## The force tolerance is reached -/

/-- Iteration `k` is executed, its step is accepted and the force norm it reports is a number below `τ`. -/
def reportsForceBelow (cfg : RelaxConfig) (env : RelaxEnv T.Field (Matrix (Fin T.D.m2) (Fin T.D.m2) ℝ)) (start : ℝ) (s : T.St)
    (t : Trace T.Field) (τ : ℝ) (k : Nat) : Prop :=
  ∃ i, k = i + 1 ∧ ¬ rejected cfg (env.step cfg (relaxAfter cfg env start s t i).state) ∧ (relaxAfter cfg env start s t i).stopped = false ∧
    ∃ x, (relaxAfter cfg env start s t k).state.forceNorm = .fin x ∧ x < τ

section
variable {ns ps : Nat × Nat × Nat} {q : Nat} {types : String × String × String} {F : V3 → V3} {polar dirichlet : Bool}
  (h : Admissible ns ps q types F polar dirichlet T.D)
include h

/-- A small velocity means a small force. -/
theorem force_le_velocity (hn : T.newton = false) : ∃ κ, 0 < κ ∧ ∀ s : T.St, T.D.norm2 (T.f s) ≤ κ * T.D.norm2 (T.u s) := by
  obtain ⟨κ, hκ, b⟩ := linear_bound h ((1 + T.D.dd2) ^ T.gamma)
  refine ⟨κ, hκ, fun s => ?_⟩
  have e : T.f s = (1 + T.D.dd2) ^ T.gamma *ᵥ T.u s := by
    have hu : T.u s = ((1 + T.D.dd2)⁻¹) ^ T.gamma *ᵥ T.f s := by
      unfold Stepper.u
      rw [hn, if_neg (by simp)]
      exact iterate_mulVec _ _ _
    rw [hu, mulVec_mulVec, inv_pow', mul_nonsing_inv, one_mulVec]
    rw [det_pow]
    exact (helmholtz_unit h).pow _
  have := b (T.u s)
  rwa [← e] at this

/-- An accepted iteration that is recorded and whose force is below the tolerance stops the run. -/
theorem stops (cfg : RelaxConfig) (strength : ℝ) (dB : V3 → V3) (clock : Nat → ℝ) (start : ℝ) (i : Nat)
    (l : LoopState T.Field (Matrix (Fin T.D.m2) (Fin T.D.m2) ℝ)) (hl : l.stopped = false) (hsave : cfg.saveEvery = 1)
    (hr : ¬ rejected cfg ((T.env strength dB clock).step cfg l.state)) (x : ℝ)
    (hx : ((T.env strength dB clock).step cfg l.state).forceNorm = .fin x) (hlt : x < cfg.forceTol) :
    (relaxIteration cfg (T.env strength dB clock) start i l).stopped = true := by
  have hrep := (C49_reported_step cfg (T.env strength dB clock) start i l hl).2.2.1
  obtain ⟨a, -, b⟩ := relaxIteration_accept cfg (T.env strength dB clock) start i l hl hr
  rw [b]
  rw [a, hx] at hrep
  unfold record
  rw [if_pos (Or.inl (by rw [hsave, Nat.mod_one]))]
  unfold Trace.append
  dsimp only
  rw [List.getLastD_concat, hrep]
  exact hlt

/-- The bookkeeping of a run in which small steps are accepted. -/
theorem stops_within (hX : IsPinv T.D.dd3 T.pinv) (hn : T.newton = false) (s : T.St) (hg : s.Bguess = s.Bn) (hdt : 0 < s.dt)
    (heta : 0 ≤ s.eta) (κ : ℝ) (hκ : 0 < κ) (fv : ∀ s : T.St, T.D.norm2 (T.f s) ≤ κ * T.D.norm2 (T.u s)) (τ : ℝ) (hτ : 0 < τ) (δ1 : ℝ) (hδ1 : 0 < δ1)
    (fac : ℝ) (hfac : 1 ≤ fac) (δ v : ℝ) (hδ : δ = min s.dt (δ1 / max 2 (fac ^ 2))) (hv : v = τ / κ) (N0 R0 K : Nat)
    (hN0 : T.D.energy s.Bn + 1 < N0 * (δ * v ^ 2)) (hR0 : s.dt * fac ^ N0 < 2 ^ R0 * δ) (hK : K = N0 + R0) (cfg : RelaxConfig) (strength : ℝ)
    (dB : V3 → V3) (clock : Nat → ℝ) (start : ℝ) (t : Trace T.Field) (ht : 0 < cfg.solverTol)
    (ht0 : cfg.solverTol ≤ 1 / (2 * (K + 1) * (T.D.norm2 s.Bn + 1)))
    (acc : ∀ x : T.St, x.eta = s.eta → x.Bguess = x.Bn → T.D.norm2 x.Bn ≤ T.D.norm2 s.Bn + 1 → 0 ≤ x.dt → x.dt ≤ δ1 →
      ¬ rejected cfg ((T.env strength dB clock).step cfg x) ∧ ((T.env strength dB clock).step cfg x).picardIterations < cfg.solverCritit)
    (hmax : 0 < cfg.solverMaxit) (hfe : cfg.dtFactor = fac) (hp : cfg.NoPerturbation) :
    ∃ k ≤ K, ((relaxAfter cfg (T.env strength dB clock) start s t k).stopped = true ∨ reportsForceBelow cfg (T.env strength dB clock) start s t τ k) ∧
        (cfg.saveEvery = 1 → cfg.forceTol = τ → (relaxAfter cfg (T.env strength dB clock) start s t k).stopped = true) := by
  classical
  have m0 : 0 < max 2 (fac ^ 2) := lt_of_lt_of_le two_pos (le_max_left _ _)
  have δ0 : 0 < δ := by rw [hδ]; exact lt_min hdt (div_pos hδ1 m0)
  have v0 : 0 < v := by rw [hv]; positivity
  have w0 : 0 < δ * v ^ 2 := by positivity
  have nB := norm2_nonneg T.D s.Bn
  by_contra hstop
  have hnone : ∀ k ≤ K, (relaxAfter cfg (T.env strength dB clock) start s t k).stopped = false ∧
      ¬ reportsForceBelow cfg (T.env strength dB clock) start s t τ k := by
    intro k hk
    have hs : (relaxAfter cfg (T.env strength dB clock) start s t k).stopped = false := by
      by_contra hs
      have hs' : (relaxAfter cfg (T.env strength dB clock) start s t k).stopped = true := by simpa using hs
      exact hstop ⟨k, hk, Or.inl hs', fun _ _ => hs'⟩
    refine ⟨hs, fun hrep => hstop ⟨k, hk, Or.inr hrep, fun hsave hforce => ?_⟩⟩
    obtain ⟨i, rfl, hacc, hal, x, hx, hlt⟩ := hrep
    refine stops h cfg strength dB clock start (i + 1) _ hal hsave hacc x ?_ (by rw [hforce]; exact hlt)
    rw [← (C49_reported_step cfg (T.env strength dB clock) start (i + 1) _ hal).2.2.1]
    exact hx
  have alive : ∀ k ≤ K, (relaxAfter cfg (T.env strength dB clock) start s t k).stopped = false := fun k hk => (hnone k hk).1
  have tb : cfg.solverTol * (2 * (K + 1) * (T.D.norm2 s.Bn + 1)) ≤ 1 := by
    rwa [le_div_iff₀ (by positivity)] at ht0
  have K0 : (0 : ℝ) ≤ K := Nat.cast_nonneg K
  have tK : K * cfg.solverTol * (T.D.norm2 s.Bn + 1) ≤ 1 := by
    have : 0 ≤ cfg.solverTol * ((K + 2) * (T.D.norm2 s.Bn + 1)) := by positivity
    nlinarith
  have tK1 : K * cfg.solverTol ≤ 1 := by
    have : 0 ≤ K * cfg.solverTol * T.D.norm2 s.Bn := by positivity
    nlinarith
  have t1 : cfg.solverTol < 1 := by
    have : 0 ≤ cfg.solverTol * (K * (T.D.norm2 s.Bn + 1) + T.D.norm2 s.Bn) := by positivity
    nlinarith
  have f0 : 0 < cfg.dtFactor := by rw [hfe]; linarith
  have grow : ∀ i ≤ K, T.D.norm2 (relaxAfter cfg (T.env strength dB clock) start s t i).state.Bn ≤ T.D.norm2 s.Bn + 1 := by
    intro i hi
    have g := C99_norm_growth cfg strength dB clock start h hX hn t1 ht.le hmax f0 s t hdt heta i
    rw [if_neg, add_zero] at g
    · have : (i : ℝ) * cfg.solverTol ≤ K * cfg.solverTol := mul_le_mul_of_nonneg_right (by exact_mod_cast hi) ht.le
      linarith
    · rintro ⟨a, b, c⟩
      exact hp cfg.applyPertAfter.toNat (by omega) ⟨by omega, a⟩
  have dtp := fun i => C49_dt_positive cfg (T.env strength dB clock) start s t hdt f0 i
  have dtl : ∀ i ≤ K, δ ≤ (relaxAfter cfg (T.env strength dB clock) start s t i).state.dt := by
    intro i hi
    have := dt_lower cfg strength dB clock start hp (by rw [hfe]; exact hfac) s t hdt δ1 hδ1 i (fun j hj hst hd => by
      exact acc (relaxAfter cfg (T.env strength dB clock) start s t j).state (dtp j).2
        (guess_eq cfg strength dB clock start hp s t hg j) (grow j (by omega)) (dtp j).1.le hd)
    rwa [hfe, ← hδ] at this
  obtain ⟨sh, shk⟩ := C99_accepted_share cfg strength dB clock start hp (by rw [hfe]; exact hfac) s t hdt K (fun i hi => alive i hi.le)
  have many : N0 ≤ (acceptedSet cfg (T.env strength dB clock) start s t K).card := by
    by_contra hlt
    push Not at hlt
    generalize (acceptedSet cfg (T.env strength dB clock) start s t K).card = A at *
    have d := dtl K le_rfl
    have e1 : (2 : ℝ) ^ R0 ≤ 2 ^ (K - A) := pow_le_pow_right₀ (by norm_num) (by omega)
    have e2 : fac ^ A ≤ fac ^ N0 := pow_le_pow_right₀ hfac hlt.le
    rw [hfe] at sh
    have e3 : δ * 2 ^ R0 ≤ (relaxAfter cfg (T.env strength dB clock) start s t K).state.dt * 2 ^ (K - A) :=
      mul_le_mul d e1 (by positivity) (dtp K).1.le
    have e4 : s.dt * fac ^ A ≤ s.dt * fac ^ N0 := mul_le_mul_of_nonneg_left e2 hdt.le
    linarith
  have dis := C99_dissipation cfg strength dB clock start h hX hn t1 ht.le hmax f0 hp s t hdt heta K
  have eK : 0 ≤ T.D.energy (relaxAfter cfg (T.env strength dB clock) start s t K).state.Bn := by
    rw [energy_norm h]; positivity
  have err : K * cfg.solverTol * (T.D.norm2 s.Bn + K * cfg.solverTol) ≤ 1 := by
    have : K * cfg.solverTol * (T.D.norm2 s.Bn + K * cfg.solverTol) ≤ K * cfg.solverTol * (T.D.norm2 s.Bn + 1) :=
      mul_le_mul_of_nonneg_left (by linarith) (by positivity)
    linarith
  have work : ((acceptedSet cfg (T.env strength dB clock) start s t K).card : ℝ) * (δ * v ^ 2) ≤
      ∑ i ∈ Finset.range K, workDone cfg (T.env strength dB clock) start s t i := by
    have sub : acceptedSet cfg (T.env strength dB clock) start s t K ⊆ Finset.range K := Finset.filter_subset _ _
    have nonneg : ∀ i ∈ Finset.range K, i ∉ acceptedSet cfg (T.env strength dB clock) start s t K →
        0 ≤ workDone cfg (T.env strength dB clock) start s t i := by
      intro i _ _
      unfold workDone
      split_ifs
      · exact mul_nonneg (dtp i).1.le (sq_nonneg _)
      · exact le_rfl
    refine le_trans ?_ (Finset.sum_le_sum_of_subset_of_nonneg sub nonneg)
    rw [← nsmul_eq_mul]
    refine Finset.card_nsmul_le_sum _ _ _ ?_
    intro i hi
    obtain ⟨hiK, hacc⟩ := Finset.mem_filter.1 hi
    have hiK' : i < K := Finset.mem_range.1 hiK
    unfold workDone
    rw [if_pos ⟨alive i hiK'.le, hacc⟩]
    have e1 : relaxAfter cfg (T.env strength dB clock) start s t (i + 1) =
          relaxIteration cfg (T.env strength dB clock) start (i + 1) (relaxAfter cfg (T.env strength dB clock) start s t i) := rfl
    have rep := (C49_reported_step cfg (T.env strength dB clock) start (i + 1) _ (alive i hiK'.le)).2.2.2.1
    obtain ⟨p, p1, p2, p3, p5, p7, p8, p6⟩ := accepted_eval cfg strength dB clock h t1 hmax _ hacc
    rw [e1, rep, p7]
    have vel : v ≤ T.D.norm2 (T.u p) := by
      by_contra hlt
      push Not at hlt
      have fs : T.D.norm2 (T.f p) < τ := by
        refine (fv p).trans_lt ?_
        have := mul_lt_mul_of_pos_left hlt hκ
        rwa [hv, mul_div_cancel₀ _ hκ.ne'] at this
      refine (hnone (i + 1) hiK').2 ⟨i, rfl, hacc, alive i hiK'.le, _, ?_, fs⟩
      rw [e1, (C49_reported_step cfg (T.env strength dB clock) start (i + 1) _ (alive i hiK'.le)).2.2.1]
      exact p8
    exact mul_le_mul (dtl i hiK'.le) (pow_le_pow_left₀ v0.le vel 2) (by positivity) (dtp i).1.le
  have fin : (N0 : ℝ) * (δ * v ^ 2) ≤ (acceptedSet cfg (T.env strength dB clock) start s t K).card * (δ * v ^ 2) :=
    mul_le_mul_of_nonneg_right (by exact_mod_cast many) w0.le
  linarith

/-- **C99** a relaxation reaches the force tolerance, in a number of iterations that does not depend on the Picard tolerance. For every initial state
(`B_guess = B_n`, `dt > 0`, `eta >= 0`), every `dt_factor >= 1` and every force tolerance `τ > 0` there are a number `K` of iterations and a tolerance
`tol0 > 0` such that every run without Newton steps and without perturbation whose Picard tolerance is at most `tol0` and whose iteration limits leave
room for `log2 (1 / tol)` evaluations (`solver_maxit >= n + 1` and `solver_critit > n + 1` for some `n` with `2^-n <= tol`) stops or has an accepted
iteration that reports a force below `τ` within `K` iterations; with `save_every = 1` and `force_tol = τ` it stops. -/
theorem C99_force_tolerance_reached (hX : IsPinv T.D.dd3 T.pinv) (hn : T.newton = false) (s : T.St) (hg : s.Bguess = s.Bn) (hdt : 0 < s.dt)
    (heta : 0 ≤ s.eta) (fac : ℝ) (hfac : 1 ≤ fac) (τ : ℝ) (hτ : 0 < τ) :
    ∃ (K : Nat) (tol0 : ℝ), 0 < tol0 ∧ ∀ (cfg : RelaxConfig) (strength : ℝ) (dB : V3 → V3) (clock : Nat → ℝ) (start : ℝ) (t : Trace T.Field)
      (n : Nat), 0 < cfg.solverTol → cfg.solverTol ≤ tol0 → 1 / 2 ^ n ≤ cfg.solverTol → (n : Int) + 1 ≤ cfg.solverMaxit →
      (n : Int) + 1 < cfg.solverCritit → cfg.dtFactor = fac → cfg.NoPerturbation →
      ∃ k ≤ K, ((relaxAfter cfg (T.env strength dB clock) start s t k).stopped = true ∨ reportsForceBelow cfg (T.env strength dB clock) start s t τ k) ∧
        (cfg.saveEvery = 1 → cfg.forceTol = τ → (relaxAfter cfg (T.env strength dB clock) start s t k).stopped = true) := by
  obtain ⟨δ1, hδ1, acc⟩ := C99_picard_accepts h hn s.eta (T.D.norm2 s.Bn + 1)
  obtain ⟨κ, hκ, fv⟩ := force_le_velocity h hn
  have m0 : 0 < max 2 (fac ^ 2) := lt_of_lt_of_le two_pos (le_max_left _ _)
  obtain ⟨δ, hδ⟩ : ∃ δ, δ = min s.dt (δ1 / max 2 (fac ^ 2)) := ⟨_, rfl⟩
  have δ0 : 0 < δ := by rw [hδ]; exact lt_min hdt (div_pos hδ1 m0)
  obtain ⟨v, hv⟩ : ∃ v, v = τ / κ := ⟨_, rfl⟩
  have v0 : 0 < v := by rw [hv]; positivity
  have w0 : 0 < δ * v ^ 2 := by positivity
  obtain ⟨N0, hN0⟩ := exists_nat_gt ((T.D.energy s.Bn + 1) / (δ * v ^ 2))
  rw [div_lt_iff₀ w0] at hN0
  obtain ⟨R0, hR0⟩ := pow_unbounded_of_one_lt (s.dt * fac ^ N0 / δ) (by norm_num : (1 : ℝ) < 2)
  rw [div_lt_iff₀ δ0] at hR0
  obtain ⟨K, hK⟩ : ∃ K, K = N0 + R0 := ⟨_, rfl⟩
  have nB := norm2_nonneg T.D s.Bn
  refine ⟨K, 1 / (2 * (K + 1) * (T.D.norm2 s.Bn + 1)), by positivity, ?_⟩
  intro cfg strength dB clock start t n ht ht0 hn2 hmax hcrit hfe hp
  refine stops_within h hX hn s hg hdt heta κ hκ fv τ hτ δ1 hδ1 fac hfac δ v hδ hv N0 R0 K hN0 hR0 hK cfg strength dB clock start t ht ht0 ?_
    (by omega) hfe hp
  intro x e1 e2 e3 e4 e5
  obtain ⟨a, b⟩ := acc cfg strength dB clock x 1 n le_rfl e1 e2 e3 e4 (by rwa [mul_one]) (by
    rw [one_mul, _root_.one_div_pow]; exact hn2) hmax
  exact ⟨a, by omega⟩

/-- **C99** a relaxation reaches the force tolerance with fixed iteration limits (such as the defaults `solver_maxit = 20`, `solver_critit = 4`): if
`solver_maxit >= 2` and `solver_critit >= 3`, then for every initial state, `dt_factor >= 1` and force tolerance `τ > 0` there is a `tol0 > 0` such
that every run without Newton steps and without perturbation with a Picard tolerance at most `tol0` stops, or has an accepted iteration that reports a
force below `τ`; with `save_every = 1` and `force_tol = τ` it stops. -/
theorem C99_force_tolerance_reached_fixed_limits (hX : IsPinv T.D.dd3 T.pinv) (hn : T.newton = false) (s : T.St) (hg : s.Bguess = s.Bn)
    (hdt : 0 < s.dt) (heta : 0 ≤ s.eta) (fac : ℝ) (hfac : 1 ≤ fac) (τ : ℝ) (hτ : 0 < τ) :
    ∃ tol0 : ℝ, 0 < tol0 ∧ ∀ tol, 0 < tol → tol ≤ tol0 → ∃ K : Nat, ∀ (cfg : RelaxConfig) (strength : ℝ) (dB : V3 → V3) (clock : Nat → ℝ)
      (start : ℝ) (t : Trace T.Field), cfg.solverTol = tol → 2 ≤ cfg.solverMaxit → 3 ≤ cfg.solverCritit → cfg.dtFactor = fac →
      cfg.NoPerturbation →
      ∃ k ≤ K, ((relaxAfter cfg (T.env strength dB clock) start s t k).stopped = true ∨ reportsForceBelow cfg (T.env strength dB clock) start s t τ k) ∧
        (cfg.saveEvery = 1 → cfg.forceTol = τ → (relaxAfter cfg (T.env strength dB clock) start s t k).stopped = true) := by
  obtain ⟨c, hc, acc⟩ := C99_picard_accepts h hn s.eta (T.D.norm2 s.Bn + 1)
  obtain ⟨κ, hκ, fv⟩ := force_le_velocity h hn
  have m0 : 0 < max 2 (fac ^ 2) := lt_of_lt_of_le two_pos (le_max_left _ _)
  obtain ⟨v, hv⟩ : ∃ v, v = τ / κ := ⟨_, rfl⟩
  have v0 : 0 < v := by rw [hv]; positivity
  have nB := norm2_nonneg T.D s.Bn
  have E0 : 0 ≤ T.D.energy s.Bn := by rw [energy_norm h]; positivity
  obtain ⟨mf, hmf⟩ := pow_unbounded_of_one_lt fac (by norm_num : (1 : ℝ) < 2)
  obtain ⟨g, hg2⟩ := pow_unbounded_of_one_lt (s.dt * v ^ 2 / (T.D.energy s.Bn + 1)) (by norm_num : (1 : ℝ) < 2)
  -- for tolerances below `tolA` the bound of the time step is `b sqrt tol`
  obtain ⟨b, hb⟩ : ∃ b, b = c / max 2 (fac ^ 2) := ⟨_, rfl⟩
  have b0 : 0 < b := by rw [hb]; positivity
  obtain ⟨Z, hZ⟩ : ∃ Z : ℝ, Z = (mf + 2) * ((T.D.energy s.Bn + 1) / (b * v ^ 2)) + (mf + 2) + g + 1 := ⟨_, rfl⟩
  have Z0 : 0 < Z := by rw [hZ]; positivity
  obtain ⟨ε, hε⟩ : ∃ ε : ℝ, ε = min (min 1 (s.dt / b)) (1 / (2 * Z * (T.D.norm2 s.Bn + 1))) := ⟨_, rfl⟩
  have ε0 : 0 < ε := by rw [hε]; positivity
  refine ⟨ε ^ 2, by positivity, ?_⟩
  intro tol ht0 ht1
  obtain ⟨r, hr⟩ : ∃ r, r = √ tol := ⟨_, rfl⟩
  have r0 : 0 < r := by rw [hr]; exact Real.sqrt_pos.2 ht0
  have rr : r ^ 2 = tol := by rw [hr]; exact Real.sq_sqrt ht0.le
  have rε : r ≤ ε := by rw [hr]; exact Real.sqrt_le_iff.2 ⟨ε0.le, ht1⟩
  have r1 : r ≤ 1 := rε.trans (by rw [hε]; exact (min_le_left _ _).trans (min_le_left _ _))
  have rs : b * r ≤ s.dt := by
    have : r ≤ s.dt / b := rε.trans (by rw [hε]; exact (min_le_left _ _).trans (min_le_right _ _))
    rw [le_div_iff₀ b0] at this
    linarith
  have rZ : r ≤ 1 / (2 * Z * (T.D.norm2 s.Bn + 1)) := rε.trans (by rw [hε]; exact min_le_right _ _)
  obtain ⟨δ, hδ⟩ : ∃ δ, δ = min s.dt (c * r / max 2 (fac ^ 2)) := ⟨_, rfl⟩
  have δe : δ = b * r := by
    rw [hδ, hb, div_mul_eq_mul_div, min_eq_right]
    rw [hb, div_mul_eq_mul_div] at rs
    exact rs
  have δ0 : 0 < δ := by rw [δe]; positivity
  have w0 : 0 < δ * v ^ 2 := by positivity
  obtain ⟨N0, hN⟩ : ∃ N0, N0 = ⌊(T.D.energy s.Bn + 1) / (δ * v ^ 2)⌋₊ + 1 := ⟨_, rfl⟩
  have N1 : (T.D.energy s.Bn + 1) / (δ * v ^ 2) < N0 := by
    rw [hN]; push_cast; exact Nat.lt_floor_add_one _
  have N2 : (N0 : ℝ) ≤ (T.D.energy s.Bn + 1) / (δ * v ^ 2) + 1 := by
    rw [hN]; push_cast
    have := Nat.floor_le (show 0 ≤ (T.D.energy s.Bn + 1) / (δ * v ^ 2) by positivity)
    linarith
  have hN0 : T.D.energy s.Bn + 1 < N0 * (δ * v ^ 2) := by rwa [div_lt_iff₀ w0] at N1
  obtain ⟨R0, hR⟩ : ∃ R0, R0 = mf * N0 + N0 + g := ⟨_, rfl⟩
  have hR0 : s.dt * fac ^ N0 < 2 ^ R0 * δ := by
    have a1 : fac ^ N0 ≤ (2 : ℝ) ^ (mf * N0) := by
      rw [pow_mul]; exact pow_le_pow_left₀ (by linarith) hmf.le N0
    have a2 : (N0 : ℝ) ≤ 2 ^ N0 := by exact_mod_cast Nat.lt_two_pow_self.le
    have a3 : s.dt < (2 : ℝ) ^ N0 * 2 ^ g * δ := by
      rw [div_lt_iff₀ (by positivity)] at hg2
      have : s.dt * v ^ 2 < (2 : ℝ) ^ N0 * 2 ^ g * δ * v ^ 2 := by
        calc s.dt * v ^ 2 < 2 ^ g * (T.D.energy s.Bn + 1) := hg2
          _ ≤ 2 ^ g * (N0 * (δ * v ^ 2)) := mul_le_mul_of_nonneg_left hN0.le (by positivity)
          _ ≤ 2 ^ g * (2 ^ N0 * (δ * v ^ 2)) := by gcongr
          _ = _ := by ring
      exact lt_of_mul_lt_mul_right this (by positivity)
    calc s.dt * fac ^ N0 ≤ s.dt * 2 ^ (mf * N0) := mul_le_mul_of_nonneg_left a1 hdt.le
      _ < (2 : ℝ) ^ N0 * 2 ^ g * δ * 2 ^ (mf * N0) := mul_lt_mul_of_pos_right a3 (by positivity)
      _ = _ := by rw [hR, pow_add, pow_add]; ring
  obtain ⟨K, hK⟩ : ∃ K, K = N0 + R0 := ⟨_, rfl⟩
  have Kb : ((K : ℝ) + 1) * r ≤ Z := by
    have e : (K : ℝ) + 1 = (mf + 2) * N0 + g + 1 := by rw [hK, hR]; push_cast; ring
    have e2 : (N0 : ℝ) * r ≤ (T.D.energy s.Bn + 1) / (b * v ^ 2) + 1 := by
      calc (N0 : ℝ) * r ≤ ((T.D.energy s.Bn + 1) / (δ * v ^ 2) + 1) * r := mul_le_mul_of_nonneg_right N2 r0.le
        _ = (T.D.energy s.Bn + 1) / (b * v ^ 2) + r := by rw [δe]; field_simp
        _ ≤ _ := by linarith
    have e3 : (g + 1 : ℝ) * r ≤ g + 1 := mul_le_of_le_one_right (by positivity) r1
    have e4 := mul_le_mul_of_nonneg_left e2 (show (0 : ℝ) ≤ mf + 2 by positivity)
    rw [e, hZ]
    nlinarith
  refine ⟨K, ?_⟩
  intro cfg strength dB clock start t htol hmax hcrit hfe hp
  refine stops_within h hX hn s hg hdt heta κ hκ fv τ hτ (c * r) (by positivity) fac hfac δ v hδ hv N0 R0 K hN0 hR0 hK cfg strength dB clock start t
    (by rw [htol]; exact ht0) ?_ ?_ (by omega) hfe hp
  · rw [htol, ← rr, le_div_iff₀ (by positivity)]
    rw [le_div_iff₀ (by positivity)] at rZ
    have : r * (((K : ℝ) + 1) * r) ≤ r * Z := mul_le_mul_of_nonneg_left Kb r0.le
    calc r ^ 2 * (2 * ((K : ℝ) + 1) * (T.D.norm2 s.Bn + 1)) = (r * (((K : ℝ) + 1) * r)) * (2 * (T.D.norm2 s.Bn + 1)) := by ring
      _ ≤ (r * Z) * (2 * (T.D.norm2 s.Bn + 1)) := mul_le_mul_of_nonneg_right this (by positivity)
      _ = r * (2 * Z * (T.D.norm2 s.Bn + 1)) := by ring
      _ ≤ 1 := rZ
  · intro x e1 e2 e3 e4 e5
    have q1 : r * (r / 2) ^ 1 ≤ cfg.solverTol := by
      rw [htol, pow_one, ← rr]
      have : 0 ≤ r ^ 2 := sq_nonneg r
      linarith
    have q2 : ((1 : Nat) : Int) + 1 ≤ cfg.solverMaxit := by omega
    obtain ⟨a, b⟩ := acc cfg strength dB clock x r 1 r1 e1 e2 e3 e4 e5 q1 q2
    refine ⟨a, ?_⟩
    omega

/-- **C99** helicity bounds the energy from below: there is a constant of the discretisation with `|helicity| <= κ energy` for every field, so a field
with nonzero helicity cannot lose all its energy. -/
theorem C99_helicity_energy : ∃ κ, 0 < κ ∧ ∀ B : T.Field, |T.D.helicity B| ≤ κ * T.D.energy B := by
  obtain ⟨A, hA⟩ : ∃ A : Matrix (Fin T.D.m1) (Fin T.D.m2) ℝ, A = T.D.dd1⁻¹ * T.D.weakCurl := ⟨_, rfl⟩
  have e : ∀ B : T.Field, T.D.helicity B = (A *ᵥ B) ⬝ᵥ T.D.M1 *ᵥ (T.D.P12 *ᵥ (B + (B - T.D.strongCurl *ᵥ (A *ᵥ B)))) := by
    intro B
    unfold DeRham.helicity DeRham.harmonicComponent DeRham.vectorPotential
    rw [hA, ← mulVec_mulVec]
  obtain ⟨c, hc, b⟩ := bilin_bound (c := 1)
    (fun (x y : T.Field) _ => (A *ᵥ x) ⬝ᵥ T.D.M1 *ᵥ (T.D.P12 *ᵥ (y + (y - T.D.strongCurl *ᵥ (A *ᵥ y)))))
    (fun s w w' u => by
      funext i
      simp only [mulVec_add, mulVec_smul, add_dotProduct, smul_dotProduct, Pi.add_apply, Pi.smul_apply, smul_eq_mul])
    (fun s w u u' => by
      funext i
      simp only [mulVec_add, mulVec_smul, mulVec_sub, dotProduct_add, dotProduct_sub, dotProduct_smul, Pi.add_apply, Pi.smul_apply, smul_eq_mul]
      ring)
  obtain ⟨cl, hcl, bl⟩ := quad_lower (C31_mass_matrices_definite h).2.2.1
  refine ⟨2 * (c * cl * cl) + 1, by positivity, fun B => ?_⟩
  rw [energy_norm h, e]
  have lx : ‖B‖ ≤ cl * T.D.norm2 B := bl B
  have n := norm2_nonneg T.D B
  have k1 := (norm_le_pi_norm (fun _ : Fin 1 => (A *ᵥ B) ⬝ᵥ T.D.M1 *ᵥ (T.D.P12 *ᵥ (B + (B - T.D.strongCurl *ᵥ (A *ᵥ B))))) 0).trans (b B B)
  refine (show |_| ≤ _ from k1).trans ?_
  calc c * ‖B‖ * ‖B‖ ≤ c * (cl * T.D.norm2 B) * (cl * T.D.norm2 B) := by gcongr
    _ = c * cl * cl * T.D.norm2 B ^ 2 := by ring
    _ ≤ (2 * (c * cl * cl) + 1) * (T.D.norm2 B ^ 2 / 2) := by nlinarith [sq_nonneg (T.D.norm2 B)]


end

/-- non-vacuity: a stepper with any options, any field, and the configuration of `test/test_utils.py` with a fixed force tolerance meet the
hypotheses of the convergence theorem. -/
example (gamma : Nat) (forceFree : Bool) (B : ∀ T : Stepper, T.Field) (τ : ℝ) (hτ : 0 < τ) : ∃ (T : Stepper) (s : T.St) (tol0 : ℝ), s.Bn = B T ∧
    T.gamma = gamma ∧ 0 < tol0 ∧ ∀ tol, 0 < tol → tol ≤ tol0 → ∃ k, (relaxAfter (⟨10, tol, 20, 4, 1.01, τ, false, 1, 0, 0, 1, false⟩ : RelaxConfig)
      (T.env 0 (fun y => y) fun _ => 0) 0 s (emptyTrace _) k).stopped = true := by
  obtain ⟨T, h, _, hX, hg, hn, _⟩ := Stepper.example true gamma false forceFree
  let s : T.St := ⟨B T, B T, 1 / 100, 0, 1, 0, .fin 0, .fin 0, .fin 0⟩
  obtain ⟨tol0, h0, key⟩ := C99_force_tolerance_reached_fixed_limits h hX hn s rfl (by norm_num [s]) le_rfl 1.01 (by norm_num) τ hτ
  refine ⟨T, s, tol0, rfl, hg, h0, fun tol ht ht0 => ?_⟩
  obtain ⟨K, hK⟩ := key tol ht ht0
  obtain ⟨k, -, -, hk⟩ := hK ⟨10, tol, 20, 4, 1.01, τ, false, 1, 0, 0, 1, false⟩ 0 (fun y => y) (fun _ => 0) 0 (emptyTrace _) rfl (by norm_num) (by norm_num)
    rfl (fun i hi hc => by exact lt_irrefl _ hc.2)
  exact ⟨k, hk rfl rfl⟩

/-- The configuration of `test/test_utils.py`, with a negative force tolerance. -/
noncomputable def Case.cfg : RelaxConfig := ⟨10, 1e-9, 20, 4, 1.01, -1, false, 1, 0, 0, 1, false⟩

theorem Case.cfg_noPerturbation : Case.cfg.NoPerturbation := fun i hi hc => by exact lt_irrefl _ hc.2

/-- A start on the standard case with a field that is a curl. -/
noncomputable def Case.start (polar : Bool) (g : Nat) (forceFree : Bool) : (Case.T polar g false forceFree).St :=
  ⟨(Case.T polar g false forceFree).D.strongCurl *ᵥ (fun _ => 1), (Case.T polar g false forceFree).D.strongCurl *ᵥ (fun _ => 1), 1 / 100, 0, 1, 0, .fin 0, .fin 0, .fin 0⟩

/-- Cases of C99 on the standard case. -/
example (polar forceFree : Bool) (g : Nat) := C99_small_step (T := Case.T polar g false forceFree) (1 / 2) 20 (by norm_num) (by norm_num)
  ⟨(Case.T polar g false forceFree).D.strongCurl *ᵥ (fun _ => 1), (Case.T polar g false forceFree).D.strongCurl *ᵥ (fun _ => 1), 0, 0, 1, 0, .fin 0, .fin 0, .fin 0⟩ rfl (by norm_num)
example (polar forceFree : Bool) (g : Nat) := C99_never_stuck (T := Case.T polar g false forceFree) Case.cfg 0 (fun _ => 0) (fun k => k) 0 (by norm_num [Case.cfg]) (by norm_num [Case.cfg]) (Case.start polar g forceFree)
  (emptyTrace _) 0 rfl
example := C99_stuck Nat Unit ⟨10, -1, 20, 4, 1.01, -1, false, 1, 0, 0, 1, false⟩ (caseEnv 1) (by rintro s x hx; cases hx; norm_num) (Or.inl (by norm_num)) caseState
example (polar forceFree : Bool) (g k : Nat) := C99_norm_growth Case.cfg 0 (fun _ => 0) (fun k => k) 0 (Case.T_adm polar g false forceFree) (Case.T_pinv _ _ _ _) rfl (by norm_num [Case.cfg]) (by norm_num [Case.cfg])
  (by norm_num [Case.cfg]) (by norm_num [Case.cfg]) (Case.start polar g forceFree) (emptyTrace _) (by norm_num [Case.start]) (by norm_num [Case.start]) k
example (polar forceFree : Bool) (g k : Nat) := C99_dissipation Case.cfg 0 (fun _ => 0) (fun k => k) 0 (Case.T_adm polar g false forceFree) (Case.T_pinv _ _ _ _) rfl (by norm_num [Case.cfg]) (by norm_num [Case.cfg])
  (by norm_num [Case.cfg]) (by norm_num [Case.cfg]) Case.cfg_noPerturbation (Case.start polar g forceFree) (emptyTrace _) (by norm_num [Case.start]) (by norm_num [Case.start]) k
example (polar forceFree : Bool) (g : Nat) := C99_rate_bound (Case.T_adm polar g false forceFree) rfl
example (polar forceFree : Bool) (g : Nat) := C99_picard_accepts (Case.T_adm polar g false forceFree) rfl (1 / 100) 1
example (polar forceFree : Bool) (g : Nat) := C99_dt_bound (T := Case.T polar g false forceFree) Case.cfg 0 (fun _ => 0) (fun k => k) 0 (by norm_num [Case.cfg]) (by norm_num [Case.cfg]) (by norm_num [Case.cfg])
  (by norm_num [Case.cfg]) (by norm_num [Case.cfg]) Case.cfg_noPerturbation (Case.start polar g forceFree) (emptyTrace _) rfl (by norm_num [Case.start])
  (|(Case.T polar g false forceFree).rate (Case.start polar g forceFree)| + 1) (by positivity) 1 (by
    intro i hi
    rw [Nat.lt_one_iff.mp hi]
    exact (le_abs_self _).trans (le_add_of_nonneg_right zero_le_one))
example (polar forceFree : Bool) (g : Nat) := C99_accepted_share (T := Case.T polar g false forceFree) Case.cfg 0 (fun _ => 0) (fun k => k) 0 Case.cfg_noPerturbation (by norm_num [Case.cfg]) (Case.start polar g forceFree) (emptyTrace _)
  (by norm_num [Case.start]) 1 (by intro i hi; rw [Nat.lt_one_iff.mp hi]; rfl)
example := C99_small_critit ⟨10, 1e-9, 20, 1, 2, -1, false, 1, 0, 0, 1, false⟩ (caseEnv 1) 0 (by norm_num) (by norm_num) (by norm_num) (by norm_num) caseState (emptyTrace _) (by norm_num [caseState]) 1
  (by intro i hi; rw [Nat.lt_one_iff.mp hi]; rfl)
example (polar forceFree : Bool) (g : Nat) := C99_force_tolerance_reached (Case.T_adm polar g false forceFree) (Case.T_pinv _ _ _ _) rfl (Case.start polar g forceFree) rfl (by norm_num [Case.start])
  (by norm_num [Case.start]) 1.01 (by norm_num) 1e-6 (by norm_num)

end Mrx.Props
