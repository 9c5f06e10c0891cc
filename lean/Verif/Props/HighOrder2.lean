import Verif.Props.HighOrder
import Verif.Props.GvecScripts

/-!
# C118: the projection studies of the GVEC scripts converge with full order

The functions the scripts project are products of sines that satisfy the conditions of the sequences, so the errors the scripts print are at most a constant, depending on the degree alone, times
`n^-(p+1)`.
-/

set_option linter.unusedSectionVars false
set_option linter.unusedVariables false

namespace Mrx.Props
open Finset Mrx.Spec Mrx Matrix DeRham Quad GvecScripts

/-- The derivatives of `sin ωx`. -/
noncomputable def sinJet (ω : ℝ) (k : Nat) (x : ℝ) : ℝ := ω ^ k * Real.sin (ω * x + k * (Real.pi / 2))

theorem sinJet_zero (ω x : ℝ) : sinJet ω 0 x = Real.sin (ω * x) := by unfold sinJet; simp

theorem sinJet_deriv (ω : ℝ) (k : Nat) (x : ℝ) : HasDerivAt (sinJet ω k) (sinJet ω (k + 1) x) x := by
  unfold sinJet
  have a : HasDerivAt (fun y : ℝ => ω * y + k * (Real.pi / 2)) ω x := by
    simpa using ((hasDerivAt_id x).const_mul ω).add_const (k * (Real.pi / 2))
  have d := a.sin.const_mul (ω ^ k)
  have s : ω * x + ((k + 1 : Nat) : ℝ) * (Real.pi / 2) = ω * x + k * (Real.pi / 2) + Real.pi / 2 := by push_cast; ring
  rw [s, Real.sin_add_pi_div_two, pow_succ]
  rw [show ω ^ k * ω * Real.cos (ω * x + k * (Real.pi / 2)) = ω ^ k * (Real.cos (ω * x + k * (Real.pi / 2)) * ω) by ring]
  exact d

theorem sinJet_jets (S : Set ℝ) (p : Nat) (ω : ℝ) : Jets S p (sinJet ω) := fun k _ x _ => (sinJet_deriv ω k x).hasDerivWithinAt

theorem sinJet_le {ω : ℝ} (h : 0 ≤ ω) (k : Nat) (x : ℝ) : |sinJet ω k x| ≤ ω ^ k := by
  unfold sinJet
  rw [abs_mul, abs_of_nonneg (pow_nonneg h k)]
  exact mul_le_of_le_one_right (pow_nonneg h k) (Real.abs_sin_le_one _)

theorem sinJet_clamped {ω : ℝ} (h : 0 ≤ ω) (p : Nat) : SmoothDir "clamped" p (sinJet ω) (ω ^ (p + 1)) := Or.inl ⟨rfl, sinJet_jets _ p ω, fun x _ _ => sinJet_le h _ x⟩

theorem sinJet_periodic (p : Nat) : SmoothDir "periodic" p (sinJet (2 * Real.pi)) ((2 * Real.pi) ^ (p + 1)) := by
  refine Or.inr (Or.inl ⟨rfl, sinJet_jets _ p _, fun x => ?_, fun x => sinJet_le (by positivity) _ x⟩)
  rw [sinJet_zero, sinJet_zero, mul_add, mul_one, Real.sin_add_two_pi]

theorem sinJet_harmonic : FirstHarmonic (sinJet (2 * Real.pi) 0) := ⟨0, 1, fun x => by rw [sinJet_zero]; ring⟩

/-- The constant of the bound: it depends on the degree alone. -/
noncomputable def studyUnit (p : Nat) : ℝ := (4 * Real.pi * ((p : ℝ) + 1) ^ 2) ^ (p + 1) / (p + 1).factorial
noncomputable def studyConst (p : Nat) : ℝ := studyUnit p * (3 + 3 * studyUnit p + studyUnit p ^ 2)

theorem studyUnit_pos (p : Nat) : 0 < studyUnit p := by
  unfold studyUnit
  have := Real.pi_pos
  positivity

theorem high_unit {x : ℝ} (p n : Nat) (hn : 0 < n) (h0 : 0 ≤ x) (h : x ≤ 4 * Real.pi * ((p : ℝ) + 1) ^ 2 / n) : x ^ (p + 1) / (p + 1).factorial ≤ studyUnit p / (n : ℝ) ^ (p + 1) := by
  have := pow_le_pow_left₀ h0 h (p + 1)
  rw [div_pow] at this
  unfold studyUnit
  rw [div_right_comm]
  exact div_le_div_of_nonneg_right this (by positivity)

theorem high_radial {p n : Nat} (h : p < n) : 0 ≤ fullOrder n p "clamped" (Real.pi ^ (p + 1)) ∧ fullOrder n p "clamped" (Real.pi ^ (p + 1)) ≤ studyUnit p / (n : ℝ) ^ (p + 1) := by
  have hn : (0 : ℝ) < (n : ℝ) - p := by
    have : (p : ℝ) < n := by exact_mod_cast h
    linarith
  have hn1 : (1 : ℝ) ≤ (n : ℝ) - p := by
    have : ((p + 1 : Nat) : ℝ) ≤ n := by exact_mod_cast h
    push_cast at this
    linarith
  have n0 : (0 : ℝ) < n := by exact_mod_cast (by omega : 0 < n)
  have pp := Real.pi_pos
  have p0 : (0 : ℝ) ≤ p := by positivity
  unfold fullOrder
  rw [if_pos rfl, ← mul_pow]
  refine ⟨by positivity, high_unit p n (by omega) (by positivity) ?_⟩
  rw [le_div_iff₀ n0, show Real.pi * (2 * (((p : ℝ) + 1) / ((n : ℝ) - p))) * n = 2 * Real.pi * (p + 1) * n / ((n : ℝ) - p) by ring, div_le_iff₀ hn]
  have k : (n : ℝ) ≤ (p + 1) * (n - p) := by nlinarith
  have k2 : 2 * Real.pi * (p + 1) * n ≤ 2 * Real.pi * (p + 1) * ((p + 1) * (n - p)) := mul_le_mul_of_nonneg_left k (by positivity)
  have k3 : 0 ≤ 2 * Real.pi * (p + 1) * ((p + 1) * ((n : ℝ) - p)) := by positivity
  nlinarith

theorem high_angular {p n : Nat} (h : 0 < n) :
    0 ≤ fullOrder n p "periodic" ((2 * Real.pi) ^ (p + 1)) ∧ fullOrder n p "periodic" ((2 * Real.pi) ^ (p + 1)) ≤ studyUnit p / (n : ℝ) ^ (p + 1) := by
  have n0 : (0 : ℝ) < n := by exact_mod_cast h
  have pp := Real.pi_pos
  have p0 : (0 : ℝ) ≤ p := by positivity
  unfold fullOrder
  rw [if_neg (by decide), if_pos rfl, ← mul_pow]
  refine ⟨by positivity, high_unit p n h (by positivity) ?_⟩
  rw [le_div_iff₀ n0, show 2 * Real.pi * (2 * (((p : ℝ) + 1) / n)) * n = 4 * Real.pi * (p + 1) * (n / n) by ring, div_self n0.ne', mul_one]
  have : (0 : ℝ) ≤ 4 * Real.pi * (p + 1) * p := by positivity
  nlinarith

theorem high_total {p n : Nat} (hn : 0 < n) {a b c : ℝ} (a0 : 0 ≤ a) (b0 : 0 ≤ b) (c0 : 0 ≤ c) (ha : a ≤ studyUnit p / (n : ℝ) ^ (p + 1)) (hb : b ≤ studyUnit p / (n : ℝ) ^ (p + 1))
    (hc : c ≤ studyUnit p / (n : ℝ) ^ (p + 1)) : (1 + a) * (1 + b) * (1 + c) - 1 * 1 * 1 ≤ studyConst p / (n : ℝ) ^ (p + 1) := by
  have u := studyUnit_pos p
  have n1 : (1 : ℝ) ≤ (n : ℝ) ^ (p + 1) := one_le_pow₀ (by exact_mod_cast hn)
  obtain ⟨y, hy⟩ : ∃ y, y = studyUnit p / (n : ℝ) ^ (p + 1) := ⟨_, rfl⟩
  have y0 : 0 ≤ y := a0.trans (by rw [hy]; exact ha)
  have y1 : y ≤ studyUnit p := by rw [hy]; exact div_le_self u.le n1
  have e : studyConst p / (n : ℝ) ^ (p + 1) = y * (3 + 3 * studyUnit p + studyUnit p ^ 2) := by unfold studyConst; rw [hy]; ring
  rw [e]
  rw [← hy] at ha hb hc
  have k : (1 + a) * (1 + b) * (1 + c) ≤ (1 + y) * (1 + y) * (1 + y) :=
    mul_le_mul (mul_le_mul (by linarith) (by linarith) (by linarith) (by linarith)) (by linarith) (by linarith) (by positivity)
  have k2 : y ^ 2 ≤ studyUnit p ^ 2 := pow_le_pow_left₀ y0 y1 2
  nlinarith

section
variable {n p q : Nat} {F : V3 → V3} {D : DeRham}

/-- `sin 2πθ sin πr`. -/
noncomputable def sinTerm2 (p : Nat) : Term :=
  { g := sinJet Real.pi, t := sinJet (2 * Real.pi), w := fun k _ => if k = 0 then 1 else 0, Mg := Real.pi ^ (p + 1), Mt := (2 * Real.pi) ^ (p + 1), Mw := 0, G := 1, T := 1, W := 1 }

/-- `sin 2πθ sin 2πζ sin πr`. -/
noncomputable def sinTerm3 (p : Nat) : Term :=
  { g := sinJet Real.pi, t := sinJet (2 * Real.pi), w := sinJet (2 * Real.pi), Mg := Real.pi ^ (p + 1), Mt := (2 * Real.pi) ^ (p + 1), Mw := (2 * Real.pi) ^ (p + 1), G := 1, T := 1, W := 1 }

theorem sinTerm2_ok (p : Nat) : (sinTerm2 p).Ok (p, p, 0) ("clamped", "periodic", "constant") true true := by
  refine ⟨sinJet_clamped Real.pi_pos.le p, sinJet_periodic p, Or.inr (Or.inr ⟨rfl, fun k _ x _ => ?_, le_rfl, fun x => rfl⟩), fun x _ _ => ⟨?_, ?_, ?_⟩, fun _ => Or.inr (Or.inl ⟨?_, sinJet_harmonic⟩),
    fun _ => ⟨rfl, ?_, fun h => absurd h (by decide)⟩⟩
  · change HasDerivWithinAt (fun _ => if k = 0 then (1 : ℝ) else 0) (if k + 1 = 0 then 1 else 0) Set.univ x
    rw [if_neg (Nat.succ_ne_zero k)]
    exact hasDerivWithinAt_const _ _ _
  · exact (sinJet_le Real.pi_pos.le 0 x).trans_eq (pow_zero _)
  · exact (sinJet_le (by positivity) 0 x).trans_eq (pow_zero _)
  · simp [sinTerm2]
  · change sinJet Real.pi 0 0 = 0
    rw [sinJet_zero, mul_zero, Real.sin_zero]
  · change sinJet Real.pi 0 1 = 0
    rw [sinJet_zero, mul_one, Real.sin_pi]

theorem sinTerm3_ok (p : Nat) : (sinTerm3 p).Ok (p, p, p) ("clamped", "periodic", "periodic") true true := by
  refine ⟨sinJet_clamped Real.pi_pos.le p, sinJet_periodic p, sinJet_periodic p, fun x _ _ => ⟨?_, ?_, ?_⟩, fun _ => Or.inr (Or.inl ⟨?_, sinJet_harmonic⟩),
    fun _ => ⟨rfl, ?_, fun h => absurd h (by decide)⟩⟩
  · exact (sinJet_le Real.pi_pos.le 0 x).trans_eq (pow_zero _)
  · exact (sinJet_le (by positivity) 0 x).trans_eq (pow_zero _)
  · exact (sinJet_le (by positivity) 0 x).trans_eq (pow_zero _)
  · change sinJet Real.pi 0 0 = 0
    rw [sinJet_zero, mul_zero, Real.sin_zero]
  · change sinJet Real.pi 0 1 = 0
    rw [sinJet_zero, mul_one, Real.sin_pi]

theorem quadVolume_nonneg {polar dirichlet : Bool} {ns ps : Nat × Nat × Nat} {types : String × String × String} (h : Admissible ns ps q types F polar dirichlet D) : 0 ≤ quadVolume D F := by
  have e : quadVolume D F = ∑ j ∈ range D.nq, (jacfwd F (D.x j)).det * D.w j := rfl
  rw [e]
  refine sum_nonneg fun j hj => ?_
  have hw := w_pos h.core (mem_range.mp hj)
  have hJ := h.regular _ (h.pointAt (mem_range.mp hj)).2
  exact mul_nonneg (le_trans (by norm_num) hJ) hw.le

theorem high_size {polar dirichlet : Bool} {ns ps : Nat × Nat × Nat} {types : String × String × String} (h : Admissible ns ps q types F polar dirichlet D) (hr : types.1 = "clamped") : ps.1 < ns.1 := by
  rcases h.r with ⟨_, _, b, _⟩ | ⟨e, _⟩ | ⟨e, _⟩
  · exact b
  · rw [hr] at e; exact absurd e (by decide)
  · rw [hr] at e; exact absurd e (by decide)

/-- **C118** Tokamak script: the printed error times the norm of the function is at most a constant depending on `p` alone times `n^-(p+1)` times the root of the volume, for every map. -/
theorem C118_tokamak (h : Admissible (n, n, 1) (p, p, 0) q ("clamped", "periodic", "constant") F true true D) :
    projectionError D target2 * D.l2Norm target2 ≤ studyConst p / (n : ℝ) ^ (p + 1) * Real.sqrt (quadVolume D F) := by
  have hpn : p < n := high_size h rfl
  have e1 := high_radial hpn
  have e2 := high_angular (p := p) (by omega : 0 < n)
  have y0 := e1.1.trans e1.2
  have t := high_total (by omega : 0 < n) e1.1 e2.1 le_rfl e1.2 e2.2 y0
  have z0 : 0 ≤ studyConst p / (n : ℝ) ^ (p + 1) := by
    have := studyUnit_pos p
    unfold studyConst
    positivity
  refine gvec_bound h target2 _ z0 ((C118_projection h [sinTerm2 p] (fun a ha => ?_) target2 fun x _ => ?_).trans ?_)
  · rw [List.mem_singleton.mp ha]; exact sinTerm2_ok p
  · simp only [List.map_cons, List.map_nil, List.sum_cons, List.sum_nil, add_zero, Term.value, sinTerm2, if_true, mul_one, sinJet_zero]
    rw [gvec_target2]
    ring
  · refine mul_le_mul_of_nonneg_right (pow_le_pow_left₀ ?_ ?_ 2) ?_
    · simp only [List.map_cons, List.map_nil, List.sum_cons, List.sum_nil, add_zero, Term.error, sinTerm2]
      have : fullOrder 1 0 "constant" 0 = 0 := by unfold fullOrder; simp
      rw [this]
      nlinarith [e1.1, e2.1, mul_nonneg e1.1 e2.1]
    · simp only [List.map_cons, List.map_nil, List.sum_cons, List.sum_nil, add_zero, Term.error, sinTerm2]
      have : fullOrder 1 0 "constant" 0 = 0 := by unfold fullOrder; simp
      rw [this]
      exact t
    · exact quadVolume_nonneg h

/-- **C118** Stellarator script: the same. -/
theorem C118_stellarator (h : Admissible (n, n, n) (p, p, p) q ("clamped", "periodic", "periodic") F true true D) :
    projectionError D target3 * D.l2Norm target3 ≤ studyConst p / (n : ℝ) ^ (p + 1) * Real.sqrt (quadVolume D F) := by
  have hpn : p < n := high_size h rfl
  have e1 := high_radial hpn
  have e2 := high_angular (p := p) (by omega : 0 < n)
  have t := high_total (by omega : 0 < n) e1.1 e2.1 e2.1 e1.2 e2.2 e2.2
  have z0 : 0 ≤ studyConst p / (n : ℝ) ^ (p + 1) := by
    have := studyUnit_pos p
    unfold studyConst
    positivity
  refine gvec_bound h target3 _ z0 ((C118_projection h [sinTerm3 p] (fun a ha => ?_) target3 fun x _ => ?_).trans ?_)
  · rw [List.mem_singleton.mp ha]; exact sinTerm3_ok p
  · simp only [List.map_cons, List.map_nil, List.sum_cons, List.sum_nil, add_zero, Term.value, sinTerm3, sinJet_zero]
    rw [gvec_target3]
    ring
  · refine mul_le_mul_of_nonneg_right (pow_le_pow_left₀ ?_ ?_ 2) ?_
    · simp only [List.map_cons, List.map_nil, List.sum_cons, List.sum_nil, add_zero, Term.error, sinTerm3]
      nlinarith [e1.1, e2.1, mul_nonneg e1.1 e2.1, mul_nonneg e2.1 e2.1, mul_nonneg (mul_nonneg e1.1 e2.1) e2.1]
    · simp only [List.map_cons, List.map_nil, List.sum_cons, List.sum_nil, add_zero, Term.error, sinTerm3]
      exact t
    · exact quadVolume_nonneg h

end

/-! ## Cases -/

/-- Case: cubic clamped splines and `sin πx`. -/
example (s : SplineBasis ℝ) (hs : SplineBasis.mk? 8 3 "clamped" = .ok s) := C118_clamped 8 3 (by norm_num) (by norm_num) (by norm_num) s hs (sinJet Real.pi) (sinJet_jets _ _ _) (Real.pi ^ 4)
  fun x _ _ => sinJet_le Real.pi_pos.le 4 x

/-- Case: cubic periodic splines and `sin 2πx`. -/
example (s : SplineBasis ℝ) (hs : SplineBasis.mk? 8 3 "periodic" = .ok s) := C118_periodic 8 3 (by norm_num) (by norm_num) (by norm_num) (by norm_num) s hs (sinJet (2 * Real.pi)) (sinJet_jets _ _ _)
  (fun x => by rw [sinJet_zero, sinJet_zero, mul_add, mul_one, Real.sin_add_two_pi]) ((2 * Real.pi) ^ 4) fun x => sinJet_le (by positivity) 4 x

/-- Case: the last sequence of the tokamak script, a sequence of the study of the stellarator script. -/
example := C118_zeroform gvec_script_case.1.choose_spec [sinTerm2 3] fun a ha => by rw [List.mem_singleton.mp ha]; exact sinTerm2_ok 3
example := C118_tokamak gvec_script_case.1.choose_spec
example := C118_stellarator gvec_study_case.choose_spec

end Mrx.Props
