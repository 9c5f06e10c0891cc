import Verif.Proofs.FormEval
import Verif.Props.Splines2

/-!
# C09: which parameters the constructors of spline bases and differential forms accept
-/

set_option linter.unusedSectionVars false

namespace Mrx.Props
open Mrx

section
variable {K : Type*} [Field K] [LinearOrder K] [IsStrictOrderedRing K]

/-- The documented admissible axes: a clamped axis needs more functions than its degree; a periodic one may
also have degree one with any number of functions; a constant axis has any `n > p` or `p = 1`. -/
def AxisAccepted (n p : Nat) (ty : String) : Prop :=
  (ty = "constant" ∧ (p < n ∨ p = 1)) ∨ (ty = "clamped" ∧ p < n) ∨
    ((ty = "periodic" ∨ ty = "fourier") ∧ (p < n ∨ (p = 1 ∧ 1 ≤ n)))

theorem deriv_accepts (n p : Nat) (ty : String) (hp : ty ≠ "constant" → 1 ≤ p) :
    (∃ s : SplineBasis K, SplineBasis.mk? n p ty = .ok s ∧ ∃ d, DerivativeSpline.mk? s = .ok d) ↔
      AxisAccepted n p ty := by
  have key : ∀ s : SplineBasis K, SplineBasis.mk? n p ty = .ok s →
      ((∃ d, DerivativeSpline.mk? s = .ok d) ↔
        ¬ ((if ty = "clamped" then n - 1 else n) ≤ (if ty = "constant" then p else p - 1) ∧
          (if ty = "constant" then p else p - 1) ≠ 1)) := by
    intro s hs
    have hty := ((C09_constructor_accepts_iff (K := K) n p ty).1 ⟨s, hs⟩).1
    obtain ⟨e1, e2, e3⟩ := Form.spline_mk?_ok hs
    unfold DerivativeSpline.mk?
    simp only [e1, e2, e3]
    have h0 : ¬ (ty ≠ "constant" ∧ p = 0) := by
      rintro ⟨a, b⟩; have := hp a; omega
    rw [if_neg h0]
    unfold SplineBasis.mk?
    simp only
    generalize (if ty = "clamped" then n - 1 else n) = a
    generalize (if ty = "constant" then p else p - 1) = b
    by_cases hc : a ≤ b ∧ b ≠ 1
    · rw [if_pos hc]
      exact ⟨fun ⟨d, hd⟩ => by simp at hd, fun h => absurd hc h⟩
    · rw [if_neg hc, if_neg (not_not.mpr hty)]
      exact ⟨fun _ => hc, fun _ => ⟨_, rfl⟩⟩
  constructor
  · rintro ⟨s, hs, hd⟩
    have h1 := (C09_constructor_accepts_iff (K := K) n p ty).1 ⟨s, hs⟩
    have h2 := (key s hs).1 hd
    obtain ⟨hty, hn⟩ := h1
    simp only [List.mem_cons, List.not_mem_nil, or_false] at hty
    unfold AxisAccepted
    rcases hty with rfl | rfl | rfl | rfl
    · right; left; have := hp (by decide); simp at h2; refine ⟨rfl, ?_⟩; omega
    · right; right; have := hp (by decide); simp at h2; refine ⟨Or.inl rfl, ?_⟩; omega
    · left; exact ⟨rfl, hn⟩
    · right; right; have := hp (by decide); simp at h2; refine ⟨Or.inr rfl, ?_⟩; omega
  · intro h
    have h1 : ty ∈ ["clamped", "periodic", "constant", "fourier"] ∧ (p < n ∨ p = 1) := by
      rcases h with ⟨rfl, h⟩ | ⟨rfl, h⟩ | ⟨rfl | rfl, h⟩ <;> refine ⟨by simp, by omega⟩
    obtain ⟨s, hs⟩ := (C09_constructor_accepts_iff (K := K) n p ty).2 h1
    refine ⟨s, hs, (key s hs).2 ?_⟩
    rcases h with ⟨rfl, h⟩ | ⟨rfl, h⟩ | ⟨rfl | rfl, h⟩
    · simp; omega
    · have := hp (by decide); simp; omega
    · have := hp (by decide); simp; omega
    · have := hp (by decide); simp; omega

/-- **C09** `DifferentialForm(k, ns, ps, types)` is accepted exactly when the degree is one of
`0, 1, 2, 3, -1` and each of the three axes is admissible (non-constant axes of degree at least one). -/
theorem C09_form_accepts_iff (k : Int) (ns ps : Nat × Nat × Nat) (types : String × String × String)
    (h0 : types.1 ≠ "constant" → 1 ≤ ps.1) (h1 : types.2.1 ≠ "constant" → 1 ≤ ps.2.1)
    (h2 : types.2.2 ≠ "constant" → 1 ≤ ps.2.2) :
    (∃ f : Form K, Form.mk? k ns ps types = .ok f) ↔
      (k = 0 ∨ k = 1 ∨ k = 2 ∨ k = 3 ∨ k = -1) ∧ AxisAccepted ns.1 ps.1 types.1 ∧
        AxisAccepted ns.2.1 ps.2.1 types.2.1 ∧ AxisAccepted ns.2.2 ps.2.2 types.2.2 := by
  rw [← deriv_accepts (K := K) _ _ _ h0, ← deriv_accepts (K := K) _ _ _ h1,
    ← deriv_accepts (K := K) _ _ _ h2]
  constructor
  · rintro ⟨f, hf⟩
    obtain ⟨hk, _, a0, a1, a2, b0, b1, b2⟩ := Form.mk?_inv hf
    exact ⟨hk, ⟨_, a0, _, b0⟩, ⟨_, a1, _, b1⟩, ⟨_, a2, _, b2⟩⟩
  · rintro ⟨hk, ⟨_, a0, _, b0⟩, ⟨_, a1, _, b1⟩, ⟨_, a2, _, b2⟩⟩
    unfold Form.mk?
    simp only [a0, a1, a2, b0, b1, b2]
    rw [if_pos (show Dims.validDegree k from hk)]
    exact ⟨_, rfl⟩

end

/-! ## Non-vacuity -/

example : ∃ f : Form ℚ, Form.mk? 2 (6, 5, 4) (3, 2, 1) ("clamped", "periodic", "clamped") = .ok f :=
  (C09_form_accepts_iff 2 _ _ _ (by decide) (by decide) (by decide)).2 (by
    unfold AxisAccepted; simp)

example : ¬ ∃ f : Form ℚ, Form.mk? 4 (6, 5, 4) (3, 2, 1) ("clamped", "periodic", "clamped") = .ok f := by
  rw [C09_form_accepts_iff _ _ _ _ (by decide) (by decide) (by decide)]; simp

example : ¬ ∃ f : Form ℚ, Form.mk? 1 (6, 5, 3) (3, 2, 3) ("clamped", "periodic", "clamped") = .ok f := by
  rw [C09_form_accepts_iff _ _ _ _ (by decide) (by decide) (by decide)]; simp [AxisAccepted]

end Mrx.Props
