import Verif.Spec.Laplacian
import Mathlib.Analysis.SpecialFunctions.Sqrt
import Mathlib.Analysis.Calculus.Deriv.Add
import Mathlib.Analysis.Calculus.Deriv.Mul
import Mathlib.Analysis.Calculus.Deriv.Inv
import Mathlib.Analysis.Calculus.Deriv.Pow
import Mathlib.Topology.Algebra.Order.Field
import Mathlib.Tactic.FieldSimp

/-! # Laplacians of functions of the distance from an axis -/

set_option linter.unusedVariables false

namespace Mrx.Spec
open Topology

/-- Distance from axis number `k` where `i`, `j` are the other two. -/
noncomputable def rho (i j : Fin 3) (y : Fin 3 → ℝ) : ℝ := √ (y i ^ 2 + y j ^ 2)

theorem sqrt_line (q : ℝ) {t : ℝ} (h : 0 < t ^ 2 + q ^ 2) : HasDerivAt (fun t => √ (t ^ 2 + q ^ 2)) (t / √ (t ^ 2 + q ^ 2)) t := by
  have h1 : HasDerivAt (fun t : ℝ => t ^ 2 + q ^ 2) (2 * t) t := by
    simpa using (hasDerivAt_pow 2 t).add_const (q ^ 2)
  have := h1.sqrt h.ne'
  convert this using 1
  have : √ (t ^ 2 + q ^ 2) ≠ 0 := (Real.sqrt_pos.mpr h).ne'
  field_simp

theorem rho_pos_near {i j : Fin 3} {y : Fin 3 → ℝ} (h : 0 < rho i j y) : ∀ᶠ z in 𝓝 y, 0 < rho i j z := by
  have : Continuous (rho i j) := by unfold rho; fun_prop
  exact this.continuousAt.eventually (lt_mem_nhds h)

theorem rho_sq_pos {i j : Fin 3} {y : Fin 3 → ℝ} (h : 0 < rho i j y) : 0 < y i ^ 2 + y j ^ 2 := Real.sqrt_pos.mp h

theorem rho_sq {i j : Fin 3} (y : Fin 3 → ℝ) : rho i j y ^ 2 = y i ^ 2 + y j ^ 2 := Real.sq_sqrt (by positivity)

theorem rho_comm (i j : Fin 3) (y : Fin 3 → ℝ) : rho i j y = rho j i y := by unfold rho; rw [add_comm]

theorem rho_pd {i j : Fin 3} (hij : i ≠ j) {y : Fin 3 → ℝ} (h : 0 < rho i j y) : HasPD (rho i j) i (y i / rho i j y) y := by
  have := sqrt_line (y j) (rho_sq_pos h)
  unfold HasPD
  have e : axisLine (rho i j) i y = fun t => √ (t ^ 2 + y j ^ 2) := by
    funext t; simp [axisLine, rho, hij.symm]
  rw [e]
  exact this

theorem rho_pd' {i j : Fin 3} (hij : i ≠ j) {y : Fin 3 → ℝ} (h : 0 < rho i j y) : HasPD (rho i j) j (y j / rho i j y) y := by
  have := rho_pd hij.symm (y := y) (by rwa [rho_comm])
  have e : rho j i = rho i j := by funext z; exact rho_comm _ _ _
  rwa [e] at this

theorem axisLine_self (U : (Fin 3 → ℝ) → ℝ) (i : Fin 3) (y : Fin 3 → ℝ) : axisLine U i y (y i) = U y := by simp [axisLine]

section rules
variable {U V : (Fin 3 → ℝ) → ℝ} {i : Fin 3} {u v : ℝ} {y : Fin 3 → ℝ}

theorem HasPD.comp' {g : ℝ → ℝ} {g' : ℝ} (hU : HasPD U i u y) (hg : HasDerivAt g g' (U y)) : HasPD (fun z => g (U z)) i (g' * u) y := by
  unfold HasPD at *
  have : HasDerivAt g g' (axisLine U i y (y i)) := by rwa [axisLine_self]
  exact this.comp (y i) hU

theorem HasPD.add' (hU : HasPD U i u y) (hV : HasPD V i v y) : HasPD (fun z => U z + V z) i (u + v) y := HasDerivAt.add hU hV

theorem HasPD.mul' (hU : HasPD U i u y) (hV : HasPD V i v y) : HasPD (fun z => U z * V z) i (u * V y + U y * v) y := by
  have := HasDerivAt.mul hU hV
  rw [axisLine_self, axisLine_self] at this
  exact this

theorem HasPD.div' (hU : HasPD U i u y) (hV : HasPD V i v y) (h : V y ≠ 0) : HasPD (fun z => U z / V z) i ((u * V y - U y * v) / V y ^ 2) y := by
  have := HasDerivAt.div hU hV (by rwa [axisLine_self])
  rw [axisLine_self, axisLine_self] at this
  exact this

theorem HasPD.coord (i : Fin 3) (y : Fin 3 → ℝ) : HasPD (fun z => z i) i 1 y := by
  unfold HasPD
  have : axisLine (fun z => z i) i y = fun t => t := by funext t; simp [axisLine]
  rw [this]
  exact hasDerivAt_id' _

theorem HasPD.coord_ne {i j : Fin 3} (h : i ≠ j) (y : Fin 3 → ℝ) : HasPD (fun z => z i) j 0 y := by
  unfold HasPD
  have : axisLine (fun z => z i) j y = fun t => y i := by funext t; simp [axisLine, h]
  rw [this]
  exact hasDerivAt_const _ _

theorem HasPD.const (c : ℝ) (i : Fin 3) (y : Fin 3 → ℝ) : HasPD (fun _ => c) i 0 y := hasDerivAt_const _ _

theorem HasPD.neg' (hU : HasPD U i u y) : HasPD (fun z => -U z) i (-u) y := HasDerivAt.neg hU

theorem HasPD.congr_near {U V : (Fin 3 → ℝ) → ℝ} (h : ∀ᶠ z in 𝓝 y, U z = V z) : HasPD U i u y ↔ HasPD V i u y := by
  unfold HasPD
  apply Filter.EventuallyEq.hasDerivAt_iff
  have hc : Filter.Tendsto (fun t => Function.update y i t) (𝓝 (y i)) (𝓝 y) := by
    have : Continuous fun t : ℝ => Function.update y i t := by fun_prop
    have := this.tendsto (y i)
    simpa using this
  exact hc.eventually h

theorem HasPD.unique (h : HasPD U i u y) (h' : HasPD U i v y) : u = v := HasDerivAt.unique h h'

/-- The partial derivative of a function of two quantities, from its two partial derivatives along lines when one of them does not depend
on coordinate `i`. -/
theorem HasPD.of_left {G : ℝ → ℝ → ℝ} {g' : ℝ} {W : (Fin 3 → ℝ) → ℝ} (hU : HasPD U i u y) (hW : ∀ t, W (Function.update y i t) = W y)
    (hG : HasDerivAt (fun r => G r (W y)) g' (U y)) : HasPD (fun z => G (U z) (W z)) i (g' * u) y := by
  have h1 := HasPD.comp' hU hG
  have e : axisLine (fun z => G (U z) (W z)) i y = axisLine (fun z => G (U z) (W y)) i y := by
    funext t; simp only [axisLine, hW]
  unfold HasPD at *
  rw [e]
  exact h1

theorem HasPD.of_right {G : ℝ → ℝ → ℝ} {g' : ℝ} {W : (Fin 3 → ℝ) → ℝ} (hU : HasPD U i u y) (hW : ∀ t, W (Function.update y i t) = W y)
    (hG : HasDerivAt (fun r => G (W y) r) g' (U y)) : HasPD (fun z => G (W z) (U z)) i (g' * u) y :=
  HasPD.of_left (G := fun a b => G b a) hU hW hG

end rules

/-- The Laplacian of a given function is unique and depends on the values near the point only. -/
theorem HasLaplacian.unique {U V : (Fin 3 → ℝ) → ℝ} {u v : ℝ} {y : Fin 3 → ℝ} (hUV : ∀ᶠ z in 𝓝 y, U z = V z) (h : HasLaplacian U u y)
    (h' : HasLaplacian V v y) : u = v := by
  obtain ⟨g, s, h1, h2, rfl⟩ := h
  obtain ⟨g', s', h1', h2', rfl⟩ := h'
  have e : ∀ i, ∀ᶠ z in 𝓝 y, g i z = g' i z := by
    intro i
    filter_upwards [h1, h1', hUV.eventually_nhds] with z a b c
    exact ((HasPD.congr_near c).mp (a i)).unique (b i)
  have : ∀ i, s i = s' i := fun i => ((HasPD.congr_near (e i)).mp (h2 i)).unique (h2' i)
  rw [this, this, this]

theorem update_ne_fix {i k : Fin 3} (h : k ≠ i) (y : Fin 3 → ℝ) (t : ℝ) : (fun z : Fin 3 → ℝ => z k) (Function.update y i t) = y k := by
  simp [h]

theorem rho_fix {i j k : Fin 3} (hi : i ≠ k) (hj : j ≠ k) (y : Fin 3 → ℝ) (t : ℝ) : rho i j (Function.update y k t) = rho i j y := by
  simp [rho, hi, hj]

theorem sum_perm {i j k : Fin 3} (hij : i ≠ j) (hik : i ≠ k) (hjk : j ≠ k) (h : Fin 3 → ℝ) : h 0 + h 1 + h 2 = h i + h j + h k := by
  fin_cases i <;> fin_cases j <;> fin_cases k <;> simp_all <;> ring

theorem third {i j k m : Fin 3} (hij : i ≠ j) (hik : i ≠ k) (hjk : j ≠ k) (h1 : ¬ m = i) (h2 : ¬ m = j) : m = k := by omega

/-- What is needed of a profile `G(ρ, w)` and its derivatives at `ρ > 0`. -/
structure Profile (G Gr Grr Gw Gww : ℝ → ℝ → ℝ) : Prop where
  r : ∀ ρ w, 0 < ρ → HasDerivAt (fun s => G s w) (Gr ρ w) ρ
  rr : ∀ ρ w, 0 < ρ → HasDerivAt (fun s => Gr s w) (Grr ρ w) ρ
  w : ∀ ρ w, 0 < ρ → HasDerivAt (fun s => G ρ s) (Gw ρ w) w
  ww : ∀ ρ w, 0 < ρ → HasDerivAt (fun s => Gw ρ s) (Gww ρ w) w

section
variable {G Gr Grr Gw Gww : ℝ → ℝ → ℝ} {i j k : Fin 3} {y : Fin 3 → ℝ}

/-- The first partial derivatives of `G(ρ, y_k)`. -/
theorem Profile.pd (hG : Profile G Gr Grr Gw Gww) (hij : i ≠ j) (hik : i ≠ k) (hjk : j ≠ k) (hy : 0 < rho i j y) :
    HasPD (fun z => G (rho i j z) (z k)) i (Gr (rho i j y) (y k) * (y i / rho i j y)) y ∧
    HasPD (fun z => G (rho i j z) (z k)) j (Gr (rho i j y) (y k) * (y j / rho i j y)) y ∧
    HasPD (fun z => G (rho i j z) (z k)) k (Gw (rho i j y) (y k)) y := by
  refine ⟨?_, ?_, ?_⟩
  · exact HasPD.of_left (W := fun z => z k) (rho_pd hij hy) (update_ne_fix hik.symm y) (hG.r _ _ hy)
  · exact HasPD.of_left (W := fun z => z k) (rho_pd' hij hy) (update_ne_fix hjk.symm y) (hG.r _ _ hy)
  · have := HasPD.of_right (G := G) (W := rho i j) (HasPD.coord k y) (rho_fix hik hjk y) (hG.w _ _ hy)
    rwa [mul_one] at this

theorem Profile.der (hG : Profile G Gr Grr Gw Gww) : ∀ ρ w, 0 < ρ → HasDerivAt (fun s => Gr s w) (Grr ρ w) ρ := hG.rr

/-- The function with value `f a` at index `i`, etc. -/
def pick (i j : Fin 3) {α : Type} (a b c : α) (m : Fin 3) : α := if m = i then a else if m = j then b else c

/-- Laplacian of `G(ρ, w)`, `ρ` the distance from the `w`-axis: `G_ρρ + G_ρ / ρ + G_ww`. -/
theorem Profile.laplacian (hG : Profile G Gr Grr Gw Gww) (hij : i ≠ j) (hik : i ≠ k) (hjk : j ≠ k) (hy : 0 < rho i j y) :
    HasLaplacian (fun z => G (rho i j z) (z k))
      (Grr (rho i j y) (y k) + Gr (rho i j y) (y k) / rho i j y + Gww (rho i j y) (y k)) y := by
  have hne := hy.ne'
  have hsq := rho_sq (i := i) (j := j) y
  obtain ⟨ρ, hρ⟩ : ∃ ρ, ρ = rho i j y := ⟨_, rfl⟩
  refine ⟨pick i j (fun z => Gr (rho i j z) (z k) * (z i / rho i j z)) (fun z => Gr (rho i j z) (z k) * (z j / rho i j z))
    (fun z => Gw (rho i j z) (z k)),
    pick i j (Grr ρ (y k) * (y i / ρ) * (y i / ρ) + Gr ρ (y k) * ((1 * ρ - y i * (y i / ρ)) / ρ ^ 2))
      (Grr ρ (y k) * (y j / ρ) * (y j / ρ) + Gr ρ (y k) * ((1 * ρ - y j * (y j / ρ)) / ρ ^ 2)) (Gww ρ (y k)), ?_, ?_, ?_⟩
  · filter_upwards [rho_pos_near hy] with z hz m
    obtain ⟨h1, h2, h3⟩ := hG.pd hij hik hjk hz
    unfold pick
    split_ifs with e1 e2
    · subst e1; exact h1
    · subst e2; exact h2
    · have : m = k := third hij hik hjk e1 e2
      subst this; exact h3
  · intro m
    unfold pick
    split_ifs with e1 e2
    · subst e1
      have a := HasPD.of_left (W := fun z => z k) (rho_pd hij hy) (update_ne_fix hik.symm y) (hG.rr _ _ hy)
      have b := (HasPD.coord m y).div' (rho_pd hij hy) hne
      rw [hρ]
      exact a.mul' b
    · subst e2
      have a := HasPD.of_left (W := fun z => z k) (rho_pd' hij hy) (update_ne_fix hjk.symm y) (hG.rr _ _ hy)
      have b := (HasPD.coord m y).div' (rho_pd' hij hy) hne
      rw [hρ]
      exact a.mul' b
    · have : m = k := third hij hik hjk e1 e2
      subst this
      have := HasPD.of_right (G := Gw) (W := rho i j) (HasPD.coord m y) (rho_fix hik hjk y) (hG.ww _ _ hy)
      rw [mul_one] at this
      rw [hρ]
      exact this
  · rw [sum_perm hij hik hjk]
    simp only [pick, if_true, hij.symm, hik.symm, hjk.symm, if_false]
    rw [← hρ] at hsq hne ⊢
    have : y j ^ 2 = ρ ^ 2 - y i ^ 2 := by linarith
    field_simp
    rw [this]
    ring

/-- Laplacian of `y_i K(ρ, w)`: `y_i (K_ρρ + 3 K_ρ / ρ + K_ww)`. -/
theorem Profile.laplacian_mul (hG : Profile G Gr Grr Gw Gww) (hij : i ≠ j) (hik : i ≠ k) (hjk : j ≠ k) (hy : 0 < rho i j y) :
    HasLaplacian (fun z => z i * G (rho i j z) (z k))
      (y i * (Grr (rho i j y) (y k) + 3 * Gr (rho i j y) (y k) / rho i j y + Gww (rho i j y) (y k))) y := by
  have hne := hy.ne'
  have hsq := rho_sq (i := i) (j := j) y
  obtain ⟨ρ, hρ⟩ : ∃ ρ, ρ = rho i j y := ⟨_, rfl⟩
  refine ⟨pick i j (fun z => 1 * G (rho i j z) (z k) + z i * (Gr (rho i j z) (z k) * (z i / rho i j z)))
    (fun z => 0 * G (rho i j z) (z k) + z i * (Gr (rho i j z) (z k) * (z j / rho i j z)))
    (fun z => 0 * G (rho i j z) (z k) + z i * Gw (rho i j z) (z k)),
    pick i j (0 * G ρ (y k) + 1 * (Gr ρ (y k) * (y i / ρ)) + (1 * (Gr ρ (y k) * (y i / ρ)) +
        y i * (Grr ρ (y k) * (y i / ρ) * (y i / ρ) + Gr ρ (y k) * ((1 * ρ - y i * (y i / ρ)) / ρ ^ 2))))
      (0 * G ρ (y k) + 0 * (Gr ρ (y k) * (y j / ρ)) + (0 * (Gr ρ (y k) * (y j / ρ)) +
        y i * (Grr ρ (y k) * (y j / ρ) * (y j / ρ) + Gr ρ (y k) * ((1 * ρ - y j * (y j / ρ)) / ρ ^ 2))))
      (0 * G ρ (y k) + 0 * Gw ρ (y k) + (0 * Gw ρ (y k) + y i * Gww ρ (y k))), ?_, ?_, ?_⟩
  · filter_upwards [rho_pos_near hy] with z hz m
    obtain ⟨h1, h2, h3⟩ := hG.pd hij hik hjk hz
    unfold pick
    split_ifs with e1 e2
    · subst e1; exact (HasPD.coord m z).mul' h1
    · subst e2; exact (HasPD.coord_ne hij z).mul' h2
    · have : m = k := third hij hik hjk e1 e2
      subst this; exact (HasPD.coord_ne hik z).mul' h3
  · obtain ⟨h1, h2, h3⟩ := hG.pd hij hik hjk hy
    intro m
    unfold pick
    split_ifs with e1 e2
    · subst e1
      have a := HasPD.of_left (W := fun z => z k) (rho_pd hij hy) (update_ne_fix hik.symm y) (hG.rr _ _ hy)
      have b := (HasPD.coord m y).div' (rho_pd hij hy) hne
      rw [hρ]
      exact ((HasPD.const 1 m y).mul' h1).add' ((HasPD.coord m y).mul' (a.mul' b))
    · subst e2
      have a := HasPD.of_left (W := fun z => z k) (rho_pd' hij hy) (update_ne_fix hjk.symm y) (hG.rr _ _ hy)
      have b := (HasPD.coord m y).div' (rho_pd' hij hy) hne
      rw [hρ]
      exact ((HasPD.const 0 m y).mul' h2).add' ((HasPD.coord_ne hij y).mul' (a.mul' b))
    · have : m = k := third hij hik hjk e1 e2
      subst this
      have := HasPD.of_right (G := Gw) (W := rho i j) (HasPD.coord m y) (rho_fix hik hjk y) (hG.ww _ _ hy)
      rw [mul_one] at this
      rw [hρ]
      exact ((HasPD.const 0 m y).mul' h3).add' ((HasPD.coord_ne hik y).mul' this)
  · rw [sum_perm hij hik hjk]
    simp only [pick, if_true, hij.symm, hik.symm, hjk.symm, if_false]
    rw [← hρ] at hsq hne ⊢
    have : y j ^ 2 = ρ ^ 2 - y i ^ 2 := by linarith
    field_simp
    rw [this]
    ring

end
end Mrx.Spec
