import Verif.Model.Loop
import Verif.Spec.Loop
import Mathlib.Tactic.Linarith

/-! # General facts about `whileLoop` -/

namespace Mrx
open Spec

variable {σ : Type} {cond : σ → Prop} {body : σ → σ}

theorem whileLoop_inv {P : σ → Prop} (hP : ∀ s, cond s → P s → P (body s)) {fuel : Nat} {s r : σ} (hs : P s)
    (h : whileLoop cond body fuel s = some r) : P r ∧ ¬ cond r := by
  induction fuel generalizing s with
  | zero => simp [whileLoop] at h
  | succ n ih =>
    unfold whileLoop at h
    split at h
    · exact ih (hP s ‹_› hs) h
    · cases h; exact ⟨hs, ‹_›⟩

theorem whileLoop_mono {fuel k : Nat} {s r : σ} (h : whileLoop cond body fuel s = some r) : whileLoop cond body (fuel + k) s = some r := by
  induction fuel generalizing s with
  | zero => simp [whileLoop] at h
  | succ n ih =>
    rw [show n + 1 + k = (n + k) + 1 by omega]
    unfold whileLoop at h ⊢
    split at h
    · rw [if_pos ‹_›]; exact ih h
    · rw [if_neg ‹_›]; exact h

/-- A loop whose measure decreases returns. -/
theorem whileLoop_terminates (μ : σ → Nat) (hμ : ∀ s, cond s → μ (body s) < μ s) (s : σ) :
    ∃ r, whileLoop cond body (μ s + 1) s = some r := by
  generalize hn : μ s = n
  induction n using Nat.strong_induction_on generalizing s with
  | _ n ih =>
    unfold whileLoop
    by_cases hc : cond s
    · rw [if_pos hc]
      have := hμ s hc
      obtain ⟨r, hr⟩ := ih (μ (body s)) (by omega) (body s) rfl
      refine ⟨r, ?_⟩
      have := whileLoop_mono (k := n - (μ (body s) + 1)) hr
      rwa [show μ (body s) + 1 + (n - (μ (body s) + 1)) = n by omega] at this
    · rw [if_neg hc]; exact ⟨s, rfl⟩

theorem Returns.unique {α : Type} {run : Nat → Option α} {r r' : α} (h : Returns run r) (h' : Returns run r') : r = r' := by
  obtain ⟨n, h⟩ := h
  obtain ⟨m, h'⟩ := h'
  have := h (max n m) (by omega)
  rw [h' (max n m) (by omega)] at this
  cases this; rfl

theorem whileLoop_returns {α : Type} (g : σ → α) {fuel : Nat} {s r : σ} (h : whileLoop cond body fuel s = some r) :
    Returns (fun n => (whileLoop cond body n s).map g) (g r) :=
  ⟨fuel, fun n hn => by
    have := whileLoop_mono (k := n - fuel) h
    rw [show fuel + (n - fuel) = n by omega] at this
    simp only [this]; rfl⟩

theorem returns_inv {α : Type} {g : σ → α} {s : σ} {a : α} (h : Returns (fun n => (whileLoop cond body n s).map g) a) :
    ∃ fuel r, whileLoop cond body fuel s = some r ∧ g r = a := by
  obtain ⟨n, h⟩ := h
  have := h n (le_refl _)
  simp only [Option.map_eq_some_iff] at this
  obtain ⟨r, hr, e⟩ := this
  exact ⟨n, r, hr, e⟩

end Mrx

namespace Mrx

variable {σ : Type} {cond : σ → Prop} {body : σ → σ}

/-- The result is an iterate of the body; the condition held before and does not hold there. -/
theorem whileLoop_iterate {fuel : Nat} {s r : σ} (h : whileLoop cond body fuel s = some r) :
    ∃ k, r = body^[k] s ∧ ¬ cond r ∧ ∀ j < k, cond (body^[j] s) := by
  induction fuel generalizing s with
  | zero => simp [whileLoop] at h
  | succ n ih =>
    unfold whileLoop at h
    split at h
    · obtain ⟨k, hk, hc, hj⟩ := ih h
      refine ⟨k + 1, by rw [Function.iterate_succ_apply]; exact hk, hc, fun j hj' => ?_⟩
      cases j with
      | zero => assumption
      | succ j => rw [Function.iterate_succ_apply]; exact hj j (by omega)
    · cases h; exact ⟨0, rfl, ‹_›, by simp⟩

end Mrx
