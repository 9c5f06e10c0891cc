import Verif.Props.Outside
import Verif.Props.ApproxForms
import Verif.Props.Poisson
import Verif.Props.Spectrum
import Mathlib.Analysis.SpecialFunctions.Trigonometric.Bounds
import Mathlib.Analysis.SpecialFunctions.Trigonometric.Deriv
import Mathlib.Analysis.SpecialFunctions.Pow.Real

/-!
# C117: the projection study, the checks of the spectra and the figure of the GVEC scripts
-/

set_option linter.unusedSectionVars false

namespace Mrx.Props
open Finset Jax Spec Matrix GvecScripts

section Projection
variable {ns ps : Nat × Nat × Nat} {q : Nat} {types : String × String × String} {F : V3 → V3} {polar dirichlet : Bool} {D : DeRham}

theorem projectionError_eq (h : Admissible ns ps q types F polar dirichlet D) (f : V3 → Fin 1 → ℝ) :
    projectionError D f = D.relativeError f (D.phys0 (D.M0⁻¹ *ᵥ D.projector0 f)) := by
  unfold projectionError projection
  have e : (fun (y : V3) (k : Fin 1) => discreteFunction D.S.L0 (D.M0⁻¹ *ᵥ D.projector0 f) D.E0 (DeRham.fromV3 y) k) = D.phys0 (D.M0⁻¹ *ᵥ D.projector0 f) := by
    funext y
    rw [h.phys0_eq]
    rfl
  rw [e]

/-- **C117** The error of the study is the smallest relative error any discrete function has: it is between 0 and 1, and it is 0 exactly if the function agrees at the quadrature points with a discrete
function. -/
theorem C117_error (h : Admissible ns ps q types F polar dirichlet D) (f : V3 → Fin 1 → ℝ) (j : Nat) (hj : j < D.nq) (hf : f (D.x j) ≠ 0) :
    0 ≤ projectionError D f ∧ projectionError D f ≤ 1 ∧ (∀ u, projectionError D f ≤ D.relativeError f (D.phys0 u)) ∧
    (∀ u, projectionError D f = D.relativeError f (D.phys0 u) → u = D.M0⁻¹ *ᵥ D.projector0 f) ∧
    (projectionError D f = 0 ↔ ∃ u, ∀ i < D.nq, D.phys0 u (D.x i) = f (D.x i)) := by
  obtain ⟨a1, a2, a3⟩ := l2Norm_sq h f
  have hpos : 0 < D.l2Norm f := lt_of_le_of_ne a1 fun e => hf (a3.mp e.symm j hj)
  obtain ⟨r0, -, r2⟩ := C78_relative_error h f (D.phys0 (D.M0⁻¹ *ᵥ D.projector0 f)) j hj hf
  have best := (C36_best_approximation h).1 f
  have pd := (C36_best_approximation h).2.2.2.2.1
  have sqle : ∀ u, D.l2Norm (fun x => f x - D.phys0 u x) ^ 2 = D.l2Norm (fun x => f x - D.phys0 (D.M0⁻¹ *ᵥ D.projector0 f) x) ^ 2
      + (u - D.M0⁻¹ *ᵥ D.projector0 f) ⬝ᵥ D.M0 *ᵥ (u - D.M0⁻¹ *ᵥ D.projector0 f) := fun u => by
    rw [(l2Norm_sq h _).2.1, (l2Norm_sq h _).2.1]; exact best u
  have opt : ∀ u, projectionError D f ≤ D.relativeError f (D.phys0 u) := by
    intro u
    rw [projectionError_eq h]
    unfold DeRham.relativeError
    refine div_le_div_of_nonneg_right ?_ a1
    refine le_of_sq_le_sq ?_ (l2Norm_sq h _).1
    rw [sqle u]
    linarith [(pd (u - D.M0⁻¹ *ᵥ D.projector0 f)).1]
  refine ⟨by rw [projectionError_eq h]; exact r0, ?_, opt, ?_, ?_⟩
  · have z : D.phys0 0 = fun _ => 0 := by
      funext y k
      rw [h.phys0_eq]
      unfold DeRham.form0 discreteFunction
      simp
    refine (opt 0).trans ?_
    unfold DeRham.relativeError
    rw [z]
    have : (fun x => f x - (fun _ : V3 => (0 : Fin 1 → ℝ)) x) = f := by funext x; simp
    rw [this, div_self hpos.ne']
  · intro u e
    rw [projectionError_eq h] at e
    unfold DeRham.relativeError at e
    have e' := (div_left_inj' hpos.ne').mp e
    have s := sqle u
    rw [← e'] at s
    exact sub_eq_zero.mp ((pd _).2 (by linarith))
  · rw [projectionError_eq h, r2]
    constructor
    · exact fun hz => ⟨_, hz⟩
    · rintro ⟨u, hu⟩
      have z := ((C78_relative_error h f (D.phys0 u) j hj hf).2.2).mpr hu
      have := opt u
      rw [z, projectionError_eq h] at this
      exact r2.mp (le_antisymm this r0)

theorem gvec_sin_lip (a b : ℝ) : |Real.sin a - Real.sin b| ≤ |a - b| := by
  have := Real.lipschitzWith_sin.dist_le_mul a b
  simpa [Real.dist_eq] using this

theorem gvec_sin_near {hh x y : ℝ} (h : NearDir "periodic" hh x y) : |Real.sin (2 * Real.pi * x) - Real.sin (2 * Real.pi * y)| ≤ 2 * Real.pi * hh := by
  rcases h with ⟨_, k, hk⟩ | ⟨hc, _⟩
  · have e : Real.sin (2 * Real.pi * x) = Real.sin (2 * Real.pi * (x - k)) := by
      rw [show 2 * Real.pi * (x - k) = 2 * Real.pi * x - (k : ℝ) * (2 * Real.pi) by ring, Real.sin_sub_int_mul_two_pi]
    rw [e]
    refine (gvec_sin_lip _ _).trans ?_
    rw [← mul_sub, abs_mul, abs_of_pos (by positivity), show x - k - y = x - y - k by ring]
    exact mul_le_mul_of_nonneg_left hk (by positivity)
  · exact absurd rfl hc

theorem gvec_prod_lip {a b a' b' : ℝ} (ha : |a| ≤ 1) (hb' : |b'| ≤ 1) : |a * b - a' * b'| ≤ |a - a'| + |b - b'| := by
  rw [show a * b - a' * b' = a * (b - b') + (a - a') * b' by ring]
  refine (abs_add_le _ _).trans ?_
  rw [abs_mul, abs_mul]
  nlinarith [abs_nonneg (b - b'), abs_nonneg (a - a')]

theorem gvec_target2 (x : ℝ × ℝ × ℝ) : target2 (toV3 x) 0 = Real.sin (2 * Real.pi * x.2.1) * Real.sin (Real.pi * x.1) := rfl
theorem gvec_target3 (x : ℝ × ℝ × ℝ) : target3 (toV3 x) 0 = Real.sin (2 * Real.pi * x.2.1) * Real.sin (2 * Real.pi * x.2.2) * Real.sin (Real.pi * x.1) := rfl

theorem gvec_radial {n p : Nat} {x y : ℝ} (h : NearDir "clamped" (reach n p "clamped") x y) :
    |Real.sin (Real.pi * x) - Real.sin (Real.pi * y)| ≤ Real.pi * (((p : ℝ) + 1) / (2 * ((n : ℝ) - p))) := by
  rcases h with ⟨hc, _⟩ | ⟨_, hk⟩
  · exact absurd hc (by decide)
  · refine (gvec_sin_lip _ _).trans ?_
    rw [← mul_sub, abs_mul, abs_of_pos Real.pi_pos]
    refine mul_le_mul_of_nonneg_left ?_ Real.pi_pos.le
    simpa [reach] using hk

theorem gvec_axis {n p : Nat} {x : ℝ} (hx0 : 0 ≤ x) (h : x ≤ 2 / ((n : ℝ) - p)) : |Real.sin (Real.pi * x)| ≤ Real.pi * (2 / ((n : ℝ) - p)) := by
  refine (Real.abs_sin_le_abs).trans ?_
  rw [abs_of_nonneg (by positivity)]
  exact mul_le_mul_of_nonneg_left h Real.pi_pos.le

theorem gvec_bound (h : Admissible ns ps q types F polar dirichlet D) (f : V3 → Fin 1 → ℝ) (ε : ℝ) (hε : 0 ≤ ε)
    (hl : l2Product (fun x => f x - D.phys0 (D.M0⁻¹ *ᵥ D.projector0 f) x) (fun x => f x - D.phys0 (D.M0⁻¹ *ᵥ D.projector0 f) x) D.S.Q F ≤ ε ^ 2 * quadVolume D F) :
    projectionError D f * D.l2Norm f ≤ ε * Real.sqrt (quadVolume D F) := by
  obtain ⟨a1, a2, a3⟩ := l2Norm_sq h f
  obtain ⟨b1, b2, b3⟩ := l2Norm_sq h fun x => f x - D.phys0 (D.M0⁻¹ *ᵥ D.projector0 f) x
  have hb : D.l2Norm (fun x => f x - D.phys0 (D.M0⁻¹ *ᵥ D.projector0 f) x) ≤ ε * Real.sqrt (quadVolume D F) := by
    rw [← b2] at hl
    have := Real.sqrt_le_sqrt hl
    rwa [Real.sqrt_sq b1, Real.sqrt_mul (sq_nonneg ε), Real.sqrt_sq hε] at this
  rw [projectionError_eq h]
  unfold DeRham.relativeError
  rcases eq_or_lt_of_le a1 with e | e
  · rw [← e, mul_zero]; exact b1.trans hb
  · rwa [div_mul_cancel₀ _ e.ne']

/-- **C117** Tokamak script: the error times the norm of the function is at most `π ((p+3)/(2(n-p)) + (p+1)/n)` times the root of the volume, for every map: the errors go to zero, at least with first
order. -/
theorem C117_tokamak_converges {n p : Nat} (h : Admissible (n, n, 1) (p, p, 0) q ("clamped", "periodic", "constant") F true true D) :
    projectionError D target2 * D.l2Norm target2 ≤ Real.pi * (((p : ℝ) + 3) / (2 * ((n : ℝ) - p)) + ((p : ℝ) + 1) / n) * Real.sqrt (quadVolume D F) := by
  have hp : 1 ≤ p ∧ p < n := by
    rcases h.r with ⟨_, a, b, _⟩ | ⟨e, _⟩ | ⟨e, _⟩
    · exact ⟨a, b⟩
    · exact absurd e (by decide)
    · exact absurd e (by decide)
  have hn : (0 : ℝ) < (n : ℝ) - p := by
    have : (p : ℝ) < n := by exact_mod_cast hp.2
    linarith
  have hn0 : (0 : ℝ) < n := by
    have : (0 : ℝ) ≤ p := Nat.cast_nonneg p
    linarith
  have hp1 : (1 : ℝ) ≤ p := by exact_mod_cast hp.1
  have pi := Real.pi_pos
  have s1 : Real.pi * (((p : ℝ) + 1) / (2 * ((n : ℝ) - p))) ≤ Real.pi * (((p : ℝ) + 3) / (2 * ((n : ℝ) - p))) := by gcongr; linarith
  have s2 : Real.pi * (2 / ((n : ℝ) - p)) ≤ Real.pi * (((p : ℝ) + 3) / (2 * ((n : ℝ) - p))) := by
    refine mul_le_mul_of_nonneg_left ?_ pi.le
    rw [show (2 : ℝ) / ((n : ℝ) - p) = 4 / (2 * ((n : ℝ) - p)) by field_simp; norm_num]
    gcongr
    linarith
  have s3 : (2 * Real.pi) * (((p : ℝ) + 1) / (2 * n)) = Real.pi * (((p : ℝ) + 1) / n) := by field_simp
  have s4 : 0 ≤ Real.pi * (((p : ℝ) + 1) / n) := by positivity
  refine gvec_bound h target2 _ (by positivity) (C100_zeroform_projection h target2 _ ?_ ?_ ?_)
  · intro x y hx hy hxy
    rw [gvec_target2, gvec_target2]
    refine (gvec_prod_lip (Real.abs_sin_le_one _) (Real.abs_sin_le_one _)).trans ?_
    have t1 := gvec_radial (n := n) (p := p) hxy.1
    have t2 := gvec_sin_near hxy.2.1
    simp only [reach, show ¬ ("periodic" = "clamped") by decide, if_false, if_true] at t2
    rw [s3] at t2
    rw [mul_add]
    linarith
  · intro _ x y hx hy h1 h2 _
    rw [gvec_target2, gvec_target2, h2]
    simp only [mul_zero, Real.sin_zero, sub_zero]
    have t := gvec_axis hx.1.1 h1
    rw [abs_mul, mul_add]
    have := Real.abs_sin_le_one (2 * Real.pi * x.2.1)
    have t' := abs_nonneg (Real.sin (Real.pi * x.1))
    nlinarith
  · intro _
    refine ⟨rfl, fun x hx hx1 => ?_⟩
    rcases hx1 with hx1 | ⟨hf, _⟩
    · rw [gvec_target2, hx1, mul_one, Real.sin_pi, mul_zero]
    · cases hf

/-- **C117** Stellarator script: the same with one more direction. -/
theorem C117_stellarator_converges {n p : Nat} (h : Admissible (n, n, n) (p, p, p) q ("clamped", "periodic", "periodic") F true true D) :
    projectionError D target3 * D.l2Norm target3 ≤ Real.pi * (((p : ℝ) + 3) / (2 * ((n : ℝ) - p)) + 2 * (((p : ℝ) + 1) / n)) * Real.sqrt (quadVolume D F) := by
  have hp : 1 ≤ p ∧ p < n := by
    rcases h.r with ⟨_, a, b, _⟩ | ⟨e, _⟩ | ⟨e, _⟩
    · exact ⟨a, b⟩
    · exact absurd e (by decide)
    · exact absurd e (by decide)
  have hn : (0 : ℝ) < (n : ℝ) - p := by
    have : (p : ℝ) < n := by exact_mod_cast hp.2
    linarith
  have hn0 : (0 : ℝ) < n := by
    have : (0 : ℝ) ≤ p := Nat.cast_nonneg p
    linarith
  have hp1 : (1 : ℝ) ≤ p := by exact_mod_cast hp.1
  have pi := Real.pi_pos
  have s1 : Real.pi * (((p : ℝ) + 1) / (2 * ((n : ℝ) - p))) ≤ Real.pi * (((p : ℝ) + 3) / (2 * ((n : ℝ) - p))) := by gcongr; linarith
  have s2 : Real.pi * (2 / ((n : ℝ) - p)) ≤ Real.pi * (((p : ℝ) + 3) / (2 * ((n : ℝ) - p))) := by
    refine mul_le_mul_of_nonneg_left ?_ pi.le
    rw [show (2 : ℝ) / ((n : ℝ) - p) = 4 / (2 * ((n : ℝ) - p)) by field_simp; norm_num]
    gcongr
    linarith
  have s3 : (2 * Real.pi) * (((p : ℝ) + 1) / (2 * n)) = Real.pi * (((p : ℝ) + 1) / n) := by field_simp
  have s4 : 0 ≤ Real.pi * (((p : ℝ) + 1) / n) := by positivity
  refine gvec_bound h target3 _ (by positivity) (C100_zeroform_projection h target3 _ ?_ ?_ ?_)
  · intro x y hx hy hxy
    rw [gvec_target3, gvec_target3]
    have c : |Real.sin (2 * Real.pi * x.2.1) * Real.sin (2 * Real.pi * x.2.2)| ≤ 1 := by
      rw [abs_mul]; exact mul_le_one₀ (Real.abs_sin_le_one _) (abs_nonneg _) (Real.abs_sin_le_one _)
    refine (gvec_prod_lip c (Real.abs_sin_le_one _)).trans ?_
    have t0 := gvec_prod_lip (a := Real.sin (2 * Real.pi * x.2.1)) (b := Real.sin (2 * Real.pi * x.2.2)) (a' := Real.sin (2 * Real.pi * y.2.1)) (b' := Real.sin (2 * Real.pi * y.2.2))
      (Real.abs_sin_le_one _) (Real.abs_sin_le_one _)
    have t1 := gvec_radial (n := n) (p := p) hxy.1
    have t2 := gvec_sin_near hxy.2.1
    have t3 := gvec_sin_near hxy.2.2
    simp only [reach, show ¬ ("periodic" = "clamped") by decide, if_false, if_true] at t2 t3
    rw [s3] at t2 t3
    rw [mul_add]
    linarith
  · intro _ x y hx hy h1 h2 _
    rw [gvec_target3, gvec_target3, h2]
    simp only [mul_zero, Real.sin_zero, sub_zero]
    have t := gvec_axis hx.1.1 h1
    have c : |Real.sin (2 * Real.pi * x.2.1) * Real.sin (2 * Real.pi * x.2.2)| ≤ 1 := by
      rw [abs_mul]; exact mul_le_one₀ (Real.abs_sin_le_one _) (abs_nonneg _) (Real.abs_sin_le_one _)
    rw [abs_mul, mul_add]
    have t' := abs_nonneg (Real.sin (Real.pi * x.1))
    nlinarith
  · intro _
    refine ⟨rfl, fun x hx hx1 => ?_⟩
    rcases hx1 with hx1 | ⟨hf, _⟩
    · rw [gvec_target3, hx1, mul_one, Real.sin_pi, mul_zero]
    · cases hf

end Projection

/-! ## Rates -/

section Rates

theorem rates_getD (ns errs : List ℝ) {i : Nat} (hi : i + 1 < ns.length) :
    (rates ns errs)[i]? = some (-(Real.log (errs.getD i 0 / errs.getD (i + 1) 0) / Real.log (ns.getD i 0 / ns.getD (i + 1) 0))) := by
  unfold rates
  rw [List.getElem?_map, List.getElem?_range (by omega)]
  rfl

theorem gvec_getD_mem {l : List ℝ} {i : Nat} (hi : i < l.length) : l.getD i 0 ∈ l := by
  rw [List.getD_eq_getElem?_getD, List.getElem?_eq_getElem hi]
  exact List.getElem_mem hi

/-- **C117** What a rate says: for increasing resolutions and positive errors, a rate is at least `r` exactly if the error is reduced by the factor `(n_i/n_(i+1))^r`; it is positive exactly if the error
decreases. -/
theorem C117_rate_iff (ns errs : List ℝ) (i : Nat) (hi : i + 1 < ns.length) (hl : errs.length = ns.length) (hpos : ∀ e ∈ errs, 0 < e) (hn : 0 < ns.getD i 0)
    (hinc : ns.getD i 0 < ns.getD (i + 1) 0) : ∃ v, (rates ns errs)[i]? = some v ∧
      (∀ r : ℝ, r ≤ v ↔ errs.getD (i + 1) 0 ≤ errs.getD i 0 * (ns.getD i 0 / ns.getD (i + 1) 0) ^ r) ∧ (0 < v ↔ errs.getD (i + 1) 0 < errs.getD i 0) := by
  refine ⟨_, rates_getD ns errs hi, ?_⟩
  have e0 := hpos _ (gvec_getD_mem (l := errs) (i := i) (by omega))
  have e1 := hpos _ (gvec_getD_mem (l := errs) (i := i + 1) (by omega))
  generalize errs.getD i 0 = a at *
  generalize errs.getD (i + 1) 0 = b at *
  generalize ns.getD i 0 = m at *
  generalize ns.getD (i + 1) 0 = k at *
  have hk : 0 < k := hn.trans hinc
  have hq : 0 < m / k := div_pos hn hk
  have hlog : Real.log (m / k) < 0 := Real.log_neg hq (by rwa [div_lt_one hk])
  have ev : -(Real.log (a / b) / Real.log (m / k)) = Real.log (a / b) / -Real.log (m / k) := by rw [div_neg]
  have hlog' : 0 < -Real.log (m / k) := by linarith
  rw [ev]
  constructor
  · intro r
    have hr : (m / k) ^ r = Real.exp (Real.log (m / k) * r) := Real.rpow_def_of_pos hq r
    rw [le_div_iff₀ hlog', hr]
    rw [← Real.log_le_log_iff e1 (by positivity), Real.log_mul e0.ne' (Real.exp_pos _).ne', Real.log_exp, Real.log_div e0.ne' e1.ne']
    constructor <;> intro hh <;> linarith
  · rw [lt_div_iff₀ hlog', zero_mul, Real.log_div e0.ne' e1.ne', sub_pos, Real.log_lt_log_iff e1 e0]

theorem gvec_mean_ge {l : List ℝ} {r : ℝ} (hl : l ≠ []) (h : r ≤ mean l) : ∃ v ∈ l, r ≤ v := by
  by_contra hc
  push Not at hc
  have hlen : (0 : ℝ) < l.length := by
    have := List.length_pos_of_ne_nil hl
    exact_mod_cast this
  have : l.sum < l.length * r := by
    clear h
    induction l with
    | nil => exact absurd rfl hl
    | cons a t ih =>
      have ha := hc a List.mem_cons_self
      rcases t with _ | ⟨b, t⟩
      · simpa using ha
      · have := ih (by simp) (fun v hv => hc v (List.mem_cons_of_mem _ hv)) (by simp only [List.length_cons]; positivity)
        rw [List.sum_cons, List.length_cons]
        push_cast at this ⊢
        linarith
  unfold mean at h
  rw [le_div_iff₀ hlen] at h
  linarith

/-- **C117** A passed assertion on the rates (with at least two resolutions) guarantees the rate `p + 1` for one step at least. -/
theorem C117_rates_pass (p : Nat) (ns errs : List ℝ) (h2 : 2 ≤ ns.length) (hl : errs.length = ns.length) (hpos : ∀ e ∈ errs, 0 < e) (hn : ∀ n ∈ ns, 0 < n)
    (hinc : ∀ i, i + 1 < ns.length → ns.getD i 0 < ns.getD (i + 1) 0) (hok : RatesOk p ns errs) :
    ∃ i, i + 1 < ns.length ∧ errs.getD (i + 1) 0 ≤ errs.getD i 0 * (ns.getD i 0 / ns.getD (i + 1) 0) ^ (p + 1) := by
  have hne : rates ns errs ≠ [] := by
    intro e
    have := congrArg List.length e
    simp only [rates, List.length_map, List.length_range, List.length_nil] at this
    omega
  obtain ⟨v, hv, hr⟩ := gvec_mean_ge hne hok
  obtain ⟨i, hi⟩ := List.getElem?_of_mem hv
  have hi' : i + 1 < ns.length := by
    have := (List.getElem?_eq_some_iff.mp hi).1
    simp only [rates, List.length_map, List.length_range] at this
    omega
  obtain ⟨w, hw, h1, -⟩ := C117_rate_iff ns errs i hi' hl hpos (hn _ (gvec_getD_mem (by omega))) (hinc i hi')
  rw [hi] at hw
  obtain rfl := Option.some.inj hw
  refine ⟨i, hi', ?_⟩
  have := (h1 ((p : ℝ) + 1)).mp hr
  rwa [show (p : ℝ) + 1 = ((p + 1 : Nat) : ℝ) by push_cast; rfl, Real.rpow_natCast] at this

/-- **C117** If the errors behave like a power of the resolution, `e(n) = c / n^k`, all rates are `k`, and the assertion passes exactly if `p + 1 ≤ k`. -/
theorem C117_rates_power (p k : Nat) (c : ℝ) (hc : 0 < c) (ns : List ℝ) (h2 : 2 ≤ ns.length) (hn : ∀ n ∈ ns, 0 < n) (hinc : ∀ i, i + 1 < ns.length → ns.getD i 0 < ns.getD (i + 1) 0) :
    rates ns (ns.map fun n => c / n ^ k) = List.replicate (ns.length - 1) (k : ℝ) ∧ (RatesOk p ns (ns.map fun n => c / n ^ k) ↔ p + 1 ≤ k) := by
  have key : rates ns (ns.map fun n => c / n ^ k) = List.replicate (ns.length - 1) (k : ℝ) := by
    unfold rates
    rw [List.eq_replicate_iff]
    refine ⟨by simp, fun v hv => ?_⟩
    obtain ⟨i, hi, rfl⟩ := List.mem_map.mp hv
    have hi := List.mem_range.mp hi
    have g : ∀ j, j < ns.length → (ns.map fun n => c / n ^ k).getD j 0 = c / ns.getD j 0 ^ k := by
      intro j hj
      rw [List.getD_eq_getElem?_getD, List.getD_eq_getElem?_getD, List.getElem?_map, List.getElem?_eq_getElem hj]
      rfl
    rw [g i (by omega), g (i + 1) (by omega)]
    have a := hn _ (gvec_getD_mem (l := ns) (i := i) (by omega))
    have b := hn _ (gvec_getD_mem (l := ns) (i := i + 1) (by omega))
    have ab := hinc i (by omega)
    generalize ns.getD i 0 = m at *
    generalize ns.getD (i + 1) 0 = l at *
    have e : c / m ^ k / (c / l ^ k) = ((m / l) ^ k)⁻¹ := by
      rw [div_pow]; field_simp
    have hlog : Real.log (m / l) ≠ 0 := (Real.log_neg (div_pos a b) (by rwa [div_lt_one b])).ne
    rw [e, Real.log_inv, Real.log_pow]
    field_simp
  refine ⟨key, ?_⟩
  unfold RatesOk mean
  rw [key, List.sum_replicate, List.length_replicate, nsmul_eq_mul]
  have : ((ns.length - 1 : Nat) : ℝ) ≠ 0 := by
    have : 0 < ns.length - 1 := by omega
    exact_mod_cast this.ne'
  rw [mul_div_cancel_left₀ _ this]
  exact_mod_cast Iff.rfl

/-- **C117** (finding) The assertion is about the mean of the rates: it also passes for errors that increase. The comment says "Check that the error decreases with increasing n at expected rate". -/
theorem C117_rates_mean : RatesOk 2 [4, 5, 6] [(5 / 4) ^ 100, 1, 6 / 5] ∧ (1 : ℝ) < 6 / 5 := by
  refine ⟨?_, by norm_num⟩
  unfold RatesOk mean rates
  have a : Real.log (5 / 4 : ℝ) ≠ 0 := (Real.log_pos (by norm_num)).ne'
  have b : Real.log (6 / 5 : ℝ) ≠ 0 := (Real.log_pos (by norm_num)).ne'
  have e1 : Real.log (4 / 5 : ℝ) = -Real.log (5 / 4) := by rw [← Real.log_inv]; norm_num
  have e2 : Real.log (5 / 6 : ℝ) = -Real.log (6 / 5) := by rw [← Real.log_inv]; norm_num
  have e3 : Real.log (1 / (6 / 5) : ℝ) = -Real.log (6 / 5) := by rw [← Real.log_inv]; norm_num
  have e4 : Real.log ((5 / 4) ^ 100 / 1 : ℝ) = 100 * Real.log (5 / 4) := by rw [div_one, Real.log_pow]; norm_num
  have r1 : -(Real.log ((5 / 4) ^ 100 / 1 : ℝ) / Real.log (4 / 5 : ℝ)) = 100 := by rw [e4, e1]; field_simp
  have r2 : -(Real.log (1 / (6 / 5) : ℝ) / Real.log (5 / 6 : ℝ)) = -1 := by rw [e3, e2]; field_simp
  have hl : (List.range ([4, 5, 6] : List ℝ).length.pred) = [0, 1] := rfl
  have : (List.range (([4, 5, 6] : List ℝ).length - 1)).map (fun i => -(Real.log ((([(5 / 4) ^ 100, 1, 6 / 5] : List ℝ).getD i 0) / (([(5 / 4) ^ 100, 1, 6 / 5] : List ℝ).getD (i + 1) 0))
      / Real.log ((([4, 5, 6] : List ℝ).getD i 0) / (([4, 5, 6] : List ℝ).getD (i + 1) 0)))) = [100, -1] := by
    show [-(Real.log ((5 / 4) ^ 100 / 1 : ℝ) / Real.log (4 / 5 : ℝ)), -(Real.log (1 / (6 / 5) : ℝ) / Real.log (5 / 6 : ℝ))] = [100, -1]
    rw [r1, r2]
  rw [this]
  norm_num

/-- **C117** The dashed line of the figures decays exactly with the rate `p + 1` and ends at nine tenths of the last error. -/
theorem C117_reference (p : Nat) (ns errs : List ℝ) (he : errs ≠ []) (h2 : 2 ≤ ns.length) (hpos : ∀ e ∈ errs, 0 < e) (hn : ∀ n ∈ ns, 0 < n)
    (hinc : ∀ i, i + 1 < ns.length → ns.getD i 0 < ns.getD (i + 1) 0) :
    (reference p ns errs).getLast? = some (9 / 10 * errs.getLast he) ∧ rates ns (reference p ns errs) = List.replicate (ns.length - 1) ((p : ℝ) + 1) := by
  have hns : ns ≠ [] := by rintro rfl; simp at h2
  have hlast : 0 < ns.getLastD 0 := by
    rw [List.getLastD_eq_getLast?, List.getLast?_eq_some_getLast hns]; exact hn _ (List.getLast_mem hns)
  have helast : errs.getLastD 0 = errs.getLast he := by rw [List.getLastD_eq_getLast?, List.getLast?_eq_some_getLast he]; rfl
  have hE : 0 < errs.getLast he := hpos _ (List.getLast_mem he)
  constructor
  · unfold reference
    rw [List.getLast?_map, List.getLast?_eq_some_getLast hns]
    have : ns.getLastD 0 = ns.getLast hns := by rw [List.getLastD_eq_getLast?, List.getLast?_eq_some_getLast hns]; rfl
    rw [Option.map_some, this, div_self (this ▸ hlast).ne', _root_.one_zpow, helast]
    congr 1
    ring
  · have e : reference p ns errs = ns.map fun n => (errs.getLast he * (9 / 10) * ns.getLastD 0 ^ (p + 1)) / n ^ (p + 1) := by
      unfold reference
      refine List.map_congr_left fun n hn' => ?_
      have hn0 := hn n hn'
      rw [helast, _root_.zpow_neg, show ((p : ℤ) + 1) = ((p + 1 : Nat) : ℤ) by push_cast; rfl, zpow_natCast, div_pow]
      field_simp
    rw [e]
    have := (C117_rates_power p (p + 1) (errs.getLast he * (9 / 10) * ns.getLastD 0 ^ (p + 1)) (by positivity) ns h2 hn hinc).1
    rw [this]
    push_cast
    rfl

end Rates

/-! ## Spectra -/

section Spectra
variable {ns ps : Nat × Nat × Nat} {q : Nat} {types : String × String × String} {F : V3 → V3} {D : DeRham}

theorem gvec_head {m : Nat} (w : Fin m → ℝ) (v : ℝ) : (List.ofFn w).head? = some v ↔ ∃ k : Fin m, k.1 = 0 ∧ w k = v := by
  rcases m with _ | m
  · simp
  · rw [List.ofFn_succ, List.head?_cons, Option.some.injEq]
    constructor
    · exact fun e => ⟨0, rfl, e⟩
    · rintro ⟨k, hk, e⟩
      rw [← e]
      congr 1
      exact Fin.ext hk.symm

theorem gvec_check {m b : Nat} {A V : Matrix (Fin m) (Fin m) ℝ} {w : Fin m → ℝ} (h : HarmonicFirst A w V b) (hb : 1 ≤ b → 1 ≤ m) (zero : Bool) :
    NullCheck (List.ofFn w) zero ↔ if zero then 1 ≤ b ∨ ∃ k : Fin m, k.1 = 0 ∧ w k < 1 / 10 ^ 10 else ∃ k : Fin m, k.1 = 0 ∧ 1 / 10 ^ 6 < w k := by
  obtain ⟨h0, h1, -, -⟩ := h
  have hneg : ∀ v ∈ List.ofFn w, -(1 / 10 ^ 10) < v := by
    intro v hv
    obtain ⟨k, rfl⟩ := List.mem_ofFn.mp hv
    have := h0 k
    norm_num
    linarith
  unfold NullCheck
  cases zero
  · simp only [Bool.false_eq_true, if_false]
    constructor
    · rintro ⟨-, v, hv, hlt⟩
      obtain ⟨k, hk, rfl⟩ := (gvec_head w v).mp hv
      exact ⟨k, hk, by rwa [abs_of_nonneg (h0 k)] at hlt⟩
    · rintro ⟨k, hk, hlt⟩
      exact ⟨hneg, w k, (gvec_head w _).mpr ⟨k, hk, rfl⟩, by rwa [abs_of_nonneg (h0 k)]⟩
  · simp only [if_true]
    constructor
    · rintro ⟨-, v, hv, hlt⟩
      obtain ⟨k, hk, rfl⟩ := (gvec_head w v).mp hv
      exact .inr ⟨k, hk, by rwa [abs_of_nonneg (h0 k)] at hlt⟩
    · rintro (hb1 | ⟨k, hk, hlt⟩)
      · have hm := hb hb1
        refine ⟨hneg, w ⟨0, hm⟩, (gvec_head w _).mpr ⟨⟨0, hm⟩, rfl, rfl⟩, ?_⟩
        rw [(h1 ⟨0, hm⟩).mpr hb1, abs_zero]
        norm_num
      · exact ⟨hneg, w k, (gvec_head w _).mpr ⟨k, hk, rfl⟩, by rwa [abs_of_nonneg (h0 k)]⟩

theorem gvec_ker_le {m b : Nat} {A : Matrix (Fin m) (Fin m) ℝ} (h : Module.finrank ℝ (LinearMap.ker A.mulVecLin) = b) : b ≤ m := by
  have := Submodule.finrank_le (LinearMap.ker A.mulVecLin)
  rw [h, Module.finrank_fin_fun] at this
  exact this

theorem gvec_betti (a b : Nat) : codeBetti true true a b = if a ≤ b then (0, 0, 1, 1) else (1, 2, 2, 1) := rfl

/-- **C117** The checks of the spectra on a polar sequence with Dirichlet conditions, in exact arithmetic: the assertions on `dd2` and `dd3` always hold, no eigenvalue is negative, and all four pass
exactly if there are at most as many radial as poloidal splines and the smallest eigenvalues of `M0 dd0` and `M1 dd1`, which are then positive, exceed `1e-6`. -/
theorem C117_spectra_iff (h : Admissible ns ps q types F true true D) (ty : Toroidal types) {w0 V0 w1 V1 w2 V2 w3 V3} (e0 : IsEigh (symmetrize (D.M0 * D.dd0)) w0 V0)
    (e1 : IsEigh (symmetrize (D.M1 * D.dd1)) w1 V1) (e2 : IsEigh (symmetrize (D.M2 * D.dd2)) w2 V2) (e3 : IsEigh (symmetrize (D.M3 * D.dd3)) w3 V3) :
    (SpectraOk [List.ofFn w0, List.ofFn w1, List.ofFn w2, List.ofFn w3] ↔
      ns.1 ≤ ns.2.1 ∧ (∃ k : Fin D.m0, k.1 = 0 ∧ 1 / 10 ^ 6 < w0 k) ∧ ∃ k : Fin D.m1, k.1 = 0 ∧ 1 / 10 ^ 6 < w1 k) ∧
    NullCheck (List.ofFn w2) true ∧ NullCheck (List.ofFn w3) true ∧
    (ns.1 ≤ ns.2.1 → (∀ k, 0 < w0 k) ∧ ∀ k, 0 < w1 k) := by
  obtain ⟨d0, d1, d2, d3⟩ := C73_harmonic_dimensions h ty
  obtain ⟨s0, s1, s2, s3⟩ := C79_plain_spectrum h ty
  have c0 := gvec_check (s0 w0 V0 e0) (fun hb => hb.trans (gvec_ker_le d0)) false
  have c1 := gvec_check (s1 w1 V1 e1) (fun hb => hb.trans (gvec_ker_le d1)) false
  have c2 := gvec_check (s2 w2 V2 e2) (fun hb => hb.trans (gvec_ker_le d2)) true
  have c3 := gvec_check (s3 w3 V3 e3) (fun hb => hb.trans (gvec_ker_le d3)) true
  simp only [Bool.false_eq_true, if_false, if_true] at c0 c1 c2 c3
  have n2 : NullCheck (List.ofFn w2) true := c2.mpr (.inl (by rw [gvec_betti]; split <;> simp))
  have n3 : NullCheck (List.ofFn w3) true := c3.mpr (.inl (by rw [gvec_betti]; split <;> simp))
  refine ⟨?_, n2, n3, fun hs => ⟨fun k => ?_, fun k => ?_⟩⟩
  · unfold SpectraOk expectedNulls
    simp only [List.zip_cons_cons, List.zip_nil_right, List.forall_mem_cons, List.not_mem_nil, false_imp_iff, implies_true, and_true]
    rw [c0, c1]
    constructor
    · rintro ⟨a, b, -, -⟩
      refine ⟨?_, a, b⟩
      by_contra hc
      obtain ⟨k, hk, hlt⟩ := a
      have : w0 k = 0 := ((s0 w0 V0 e0).2.1 k).mpr (by rw [gvec_betti, if_neg hc, hk]; exact Nat.zero_lt_one)
      rw [this] at hlt
      norm_num at hlt
    · rintro ⟨-, a, b⟩
      exact ⟨a, b, n2, n3⟩
  · refine lt_of_le_of_ne ((s0 w0 V0 e0).1 k) fun e => ?_
    have := ((s0 w0 V0 e0).2.1 k).mp e.symm
    rw [gvec_betti, if_pos hs] at this
    exact Nat.not_lt_zero _ this
  · refine lt_of_le_of_ne ((s1 w1 V1 e1).1 k) fun e => ?_
    have := ((s1 w1 V1 e1).2.1 k).mp e.symm
    rw [gvec_betti, if_pos hs] at this
    exact Nat.not_lt_zero _ this

/-- **C117** Both checked maxima are 0 in exact arithmetic, for every admissible sequence. -/
theorem C117_exactness {polar dirichlet : Bool} (h : Admissible ns ps q types F polar dirichlet D) : exactness D = (0, 0) := by
  obtain ⟨a, b, -, -⟩ := C33_exactness h
  unfold exactness maxAbs
  rw [a, b]
  simp

end Spectra

/-! ## The figure -/

section Figure
variable (zeta : ℝ) (X1h X2h : V3 → Fin 1 → ℝ)

/-- **C117** The figure of the map: there are as many curves as asked for, at radii and angles that divide the unit interval evenly; the curves of constant radius are closed (first and last point agree,
whatever the coordinate functions), the lines of constant angle run from the axis to the boundary, and the axis in the title is where the first of them starts. -/
theorem C117_curves (nrho ntheta : Nat) :
    (blackCurves nrho zeta X1h X2h).length = nrho ∧ (redLines ntheta zeta X1h X2h).length = ntheta ∧
    (∀ (i : Nat) (c : List (ℝ × ℝ)), (blackCurves nrho zeta X1h X2h)[i]? = some c → c.length = 180 ∧
      c.head? = some (X1h ![(i : ℝ) / ((nrho - 1 : Nat) : ℝ), 0, zeta] 0, X2h ![(i : ℝ) / ((nrho - 1 : Nat) : ℝ), 0, zeta] 0) ∧ c.getLast? = c.head? ∧
      ∀ k : Nat, k < 179 → c[k]? = some (X1h ![(i : ℝ) / ((nrho - 1 : Nat) : ℝ), (k : ℝ) / 179, zeta] 0, X2h ![(i : ℝ) / ((nrho - 1 : Nat) : ℝ), (k : ℝ) / 179, zeta] 0)) ∧
    (∀ (j : Nat) (c : List (ℝ × ℝ)), (redLines ntheta zeta X1h X2h)[j]? = some c → c.length = 80 ∧ c.head? = some (X1h ![0, (j : ℝ) / ntheta, zeta] 0, X2h ![0, (j : ℝ) / ntheta, zeta] 0) ∧
      c.getLast? = some (X1h ![1, (j : ℝ) / ntheta, zeta] 0, X2h ![1, (j : ℝ) / ntheta, zeta] 0)) ∧
    titleAxis zeta X1h X2h = (X1h ![0, 0, zeta] 0, X2h ![0, 0, zeta] 0) := by
  have pt : ∀ (k : Nat), 2 * Real.pi * k / ((180 - 1 : Nat) : ℝ) / (2 * Real.pi) = (k : ℝ) / 179 := by
    intro k
    have := Real.pi_pos.ne'
    push_cast
    field_simp
  refine ⟨by simp [blackCurves, linspace], by simp [redLines], fun i c hc => ?_, fun j c hc => ?_, ?_⟩
  · unfold blackCurves linspace at hc
    rw [List.getElem?_map, List.getElem?_map] at hc
    obtain ⟨r, hr, rfl⟩ := Option.map_eq_some_iff.mp hc
    obtain ⟨i', hi', rfl⟩ := Option.map_eq_some_iff.mp hr
    obtain ⟨hlt, rfl⟩ := List.getElem?_eq_some_iff.mp hi'
    rw [List.getElem_range]
    simp only [one_mul]
    generalize (i : ℝ) / ((nrho - 1 : Nat) : ℝ) = r
    have el : ∀ k : Nat, k < 180 → (evalMap zeta X1h X2h r ((List.range 180).map fun k : Nat => 2 * Real.pi * k / ((180 - 1 : Nat) : ℝ)))[k]? =
        some (X1h ![r, Int.fract ((k : ℝ) / 179), zeta] 0, X2h ![r, Int.fract ((k : ℝ) / 179), zeta] 0) := by
      intro k hk
      unfold evalMap
      rw [List.getElem?_map, List.getElem?_map, List.getElem?_range hk, Option.map_some, Option.map_some, pt]
    have fr : ∀ k : Nat, k < 179 → Int.fract ((k : ℝ) / 179) = (k : ℝ) / 179 := by
      intro k hk
      rw [Int.fract_eq_self]
      have : (k : ℝ) < 179 := by exact_mod_cast hk
      exact ⟨by positivity, by rw [div_lt_one (by norm_num)]; exact this⟩
    have len : (evalMap zeta X1h X2h r ((List.range 180).map fun k : Nat => 2 * Real.pi * k / ((180 - 1 : Nat) : ℝ))).length = 180 := by simp [evalMap]
    have hd := el 0 (by norm_num)
    rw [fr 0 (by norm_num)] at hd
    simp only [Nat.cast_zero, zero_div] at hd
    have la := el 179 (by norm_num)
    rw [show (((179 : Nat) : ℝ) / 179) = 1 by norm_num, Int.fract_one] at la
    refine ⟨len, ?_, ?_, fun k hk => ?_⟩
    · rw [List.head?_eq_getElem?]; exact hd
    · rw [List.head?_eq_getElem?, List.getLast?_eq_getElem?, len, hd, ← la]
    · rw [el k (by omega), fr k hk]
  · unfold redLines at hc
    rw [List.getElem?_map] at hc
    obtain ⟨j', hj', rfl⟩ := Option.map_eq_some_iff.mp hc
    obtain ⟨hlt, rfl⟩ := List.getElem?_eq_some_iff.mp hj'
    rw [List.getElem_range]
    generalize (j : ℝ) / (ntheta : ℝ) = t
    have len : (evalMapTheta zeta X1h X2h t).length = 80 := by simp [evalMapTheta, linspace]
    have el : ∀ k : Nat, k < 80 → (evalMapTheta zeta X1h X2h t)[k]? = some (X1h ![(k : ℝ) / 79, t, zeta] 0, X2h ![(k : ℝ) / 79, t, zeta] 0) := by
      intro k hk
      unfold evalMapTheta linspace
      rw [List.getElem?_map, List.getElem?_map, List.getElem?_range hk, Option.map_some, Option.map_some]
      norm_num
    refine ⟨len, ?_, ?_⟩
    · rw [List.head?_eq_getElem?, el 0 (by norm_num)]
      simp
    · rw [List.getLast?_eq_getElem?, len, el 79 (by norm_num)]
      norm_num
  · unfold titleAxis evalMap
    simp

end Figure

/-! ## Cases -/

/-- Case: the standard case and the constant function 1. -/
example (polar dirichlet : Bool) (j : Nat) (hj : j < (Case.D polar dirichlet).nq) :=
  C117_error (Case.adm polar dirichlet) (fun _ _ => 1) j hj (fun h => one_ne_zero (congrFun h 0))

/-- A sequence as in the scripts, on the identity map. -/
theorem gvec_script_case : (∃ D, Admissible (18, 18, 1) (3, 3, 0) 5 ("clamped", "periodic", "constant") (fun y => y) true true D) ∧
    ∃ D, Admissible (6, 8, 8) (3, 3, 3) 4 ("clamped", "periodic", "periodic") (fun y => y) true true D :=
  ⟨Admissible.exists (fun y => y) true true (by norm_num) (by unfold DirOK; norm_num) (by unfold DirOK; norm_num) (by unfold DirOK; norm_num) (by intro _; simp) fun x => by
      rw [jacobianDeterminant_id]; norm_num,
    Admissible.exists (fun y => y) true true (by norm_num) (by unfold DirOK; norm_num) (by unfold DirOK; norm_num) (by unfold DirOK; norm_num) (by intro _; simp) fun x => by
      rw [jacobianDeterminant_id]; norm_num⟩

/-- Case: the last sequence of the tokamak script. -/
example := C117_tokamak_converges gvec_script_case.1.choose_spec

/-- Case: a sequence of the study of the stellarator script. -/
theorem gvec_study_case : ∃ D, Admissible (9, 9, 9) (2, 2, 2) 4 ("clamped", "periodic", "periodic") (fun y => y) true true D :=
  Admissible.exists (fun y => y) true true (by norm_num) (by unfold DirOK; norm_num) (by unfold DirOK; norm_num) (by unfold DirOK; norm_num) (by intro _; simp) fun x => by
    rw [jacobianDeterminant_id]; norm_num
example := C117_stellarator_converges gvec_study_case.choose_spec

/-- Case: the checks of both scripts. -/
example (w0 V0 w1 V1 w2 V2 w3 V3) (e0) (e1) (e2) (e3) := C117_spectra_iff gvec_script_case.1.choose_spec ⟨rfl, by decide, by decide⟩ (w0 := w0) (V0 := V0) (w1 := w1) (V1 := V1) (w2 := w2)
  (V2 := V2) (w3 := w3) (V3 := V3) e0 e1 e2 e3
example (w0 V0 w1 V1 w2 V2 w3 V3) (e0) (e1) (e2) (e3) := C117_spectra_iff gvec_script_case.2.choose_spec ⟨rfl, by decide, by decide⟩ (w0 := w0) (V0 := V0) (w1 := w1) (V1 := V1) (w2 := w2)
  (V2 := V2) (w3 := w3) (V3 := V3) e0 e1 e2 e3
example (polar dirichlet : Bool) := C117_exactness (Case.adm polar dirichlet)

/-- Case: third order convergence at the resolutions 4, 5, 6. -/
example := C117_rates_power 2 3 7 (by norm_num) [4, 5, 6] (by norm_num) (by norm_num) (by
  intro i hi
  have hi' : i + 1 < 3 := hi
  have : i = 0 ∨ i = 1 := by omega
  rcases this with rfl | rfl <;> norm_num)
example := C117_rate_iff [4, 5, 6] [3, 2, 1] 1 (by norm_num) rfl (by norm_num) (by norm_num) (by norm_num)
example := C117_rates_pass 2 [4, 5, 6] [(5 / 4) ^ 100, 1, 6 / 5] (by norm_num) rfl (by norm_num) (by norm_num) (by
  intro i hi
  have hi' : i + 1 < 3 := hi
  have : i = 0 ∨ i = 1 := by omega
  rcases this with rfl | rfl <;> norm_num) C117_rates_mean.1
example := C117_reference 2 [4, 5, 6] [3, 2, 1] (by simp) (by norm_num) (by norm_num) (by norm_num) (by
  intro i hi
  have hi' : i + 1 < 3 := hi
  have : i = 0 ∨ i = 1 := by omega
  rcases this with rfl | rfl <;> norm_num)
example := C117_curves 0 (fun x _ => 6 + x 0) (fun x _ => x 1) 9 12

end Mrx.Props
