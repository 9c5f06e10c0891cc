import Verif.Model.SplineBases
import Verif.Proofs.BSpline
import Mathlib.Tactic.NormNum
import Mathlib.Tactic.Push

/-! # `_p_spline` on list slices refines the textbook recursion -/

set_option linter.unusedSectionVars false

namespace Mrx

open Spec

variable {K : Type*} [Field K] [LinearOrder K] [IsStrictOrderedRing K]

namespace Jax

theorem get_natCast (l : List K) (k : Nat) : get l (k : Int) = l.getD (min k (l.length - 1)) 0 := by
  simp [get, Int.not_lt.mpr (Int.natCast_nonneg k)]

theorem get_of_lt (l : List K) (k : Nat) (h : k < l.length) : get l (k : Int) = l[k] := by
  rw [get_natCast, Nat.min_eq_left (by omega), List.getD_eq_getElem?_getD, List.getElem?_eq_getElem h]
  rfl

theorem get_neg_one (l : List K) (h : l ≠ []) : get l (-1) = get l ((l.length - 1 : Nat) : Int) := by
  have : 0 < l.length := List.length_pos_iff.mpr h
  rw [get_natCast]
  simp only [get]
  rw [if_pos (by omega)]
  congr 1; omega

theorem slice_dropLast {α : Type*} (l : List α) (h : l ≠ []) : slice l 0 (-1) = l.dropLast := by
  have : 0 < l.length := List.length_pos_iff.mpr h
  simp only [slice]
  simp only [Int.lt_irrefl, if_false, Int.toNat_zero, Nat.zero_min, List.drop_zero]
  rw [List.dropLast_eq_take, if_pos (by omega)]
  congr 1; omega

theorem slice_tail {α : Type*} (l : List α) : slice l 1 l.length = l.drop 1 := by
  simp only [slice]
  rw [if_neg (by omega), if_neg (by omega)]
  simp only [Int.toNat_natCast, Nat.min_self, List.take_length, Int.toNat_one]
  by_cases h : l.length = 0
  · have := List.length_eq_zero_iff.mp h; subst this; simp
  · rw [Nat.min_eq_left (by omega)]

theorem dynamicSlice_eq {α : Type*} (l : List α) (i size : Nat) (h : i + size ≤ l.length) :
    dynamicSlice l (i : Int) size = (l.drop i).take size := by
  simp only [dynamicSlice]
  rw [if_neg (by omega), Int.toNat_natCast, Nat.min_eq_left (by omega)]

theorem get_mem (l : List K) (h : l ≠ []) (k : Nat) : get l (k : Int) ∈ l := by
  have : 0 < l.length := List.length_pos_iff.mpr h
  rw [get_natCast, List.getD_eq_getElem?_getD,
    List.getElem?_eq_getElem (by omega : min k (l.length - 1) < l.length)]
  exact List.getElem_mem _

end Jax

/-- Distinct knots differ by more than the tolerance of `jnp.isclose`. -/
def Separated (T : List K) : Prop :=
  ∀ a ∈ T, ∀ b ∈ T, a ≠ b → ¬ Jax.isclose a b ∧ ¬ Jax.isclose (a - b) 0

namespace SplineBasis

theorem safeDivide_sub {T : List K} (hT : Separated T) {a b : K} (ha : a ∈ T) (hb : b ∈ T) (x : K) :
    safeDivide x (a - b) = x / (a - b) := by
  unfold safeDivide
  by_cases h : a = b
  · subst h; simp
  · rw [if_neg (hT a ha b hb h).2]

theorem isclose_self (a : K) : Jax.isclose a a := by
  unfold Jax.isclose; simp; positivity

theorem pSpline_eq (x : K) {T : List K} (hT : Separated T) (p : Nat) (t : List K)
    (hl : t.length = p + 2) (hs : ∀ a ∈ t, a ∈ T) :
    pSpline x t p = N (fun k => Jax.get t (k : Int)) p 0 x := by
  induction p generalizing t with
  | zero =>
    simp only [pSpline, constSpline, N]
    have hne : t ≠ [] := by rintro rfl; simp at hl
    have m0 := hs _ (Jax.get_mem t hne 0)
    have m1 := hs _ (Jax.get_mem t hne 1)
    simp only [Nat.cast_zero, Nat.cast_one, Nat.zero_add] at *
    by_cases h : Jax.get t 0 = Jax.get t 1
    · rw [h, if_pos (isclose_self _), if_neg]
      intro hc; exact absurd (hc.1.trans_lt hc.2) (lt_irrefl _)
    · rw [if_neg (hT _ m0 _ m1 h).1]
  | succ p ih =>
    have hne : t ≠ [] := by rintro rfl; simp at hl
    simp only [pSpline, N]
    have m := fun k => hs _ (Jax.get_mem t hne k)
    have m0 := m 0; have m1 := m 1; have m2 := m (p+1); have m3 := m (p+2)
    simp only [Nat.cast_zero, Nat.cast_one] at m0 m1
    rw [safeDivide_sub hT m2 m0, safeDivide_sub hT m3 m1, Jax.slice_dropLast t hne, Jax.slice_tail]
    rw [ih t.dropLast (by simp [hl]) (fun a ha => hs a (List.mem_of_mem_dropLast ha)),
      ih (t.drop 1) (by simp [hl]) (fun a ha => hs a (List.mem_of_mem_drop ha))]
    have e1 : N (fun k => Jax.get t.dropLast (k : Int)) p 0 x
        = N (fun k => Jax.get t (k : Int)) p 0 x := by
      apply N_congr
      intro k hk
      rw [Jax.get_of_lt _ _ (by simp [hl]; omega), Jax.get_of_lt _ _ (by omega)]
      simp
    have e2 : N (fun k => Jax.get (t.drop 1) (k : Int)) p 0 x
        = N (fun k => Jax.get t (k : Int)) p 1 x := by
      apply N_congr
      intro k hk
      rw [Jax.get_of_lt _ _ (by simp [hl]; omega), Jax.get_of_lt _ _ (by omega)]
      simp [Nat.add_comm]
    rw [e1, e2]
    simp

/-- `_evaluate` is the textbook spline over the stored knots. -/
theorem evaluate'_eq (s : SplineBasis K) (hT : Separated s.T)
    (hm : Monotone fun k : Nat => Jax.get s.T (k : Int)) (x : K) (i : Nat)
    (hi : i + s.p + 2 ≤ s.T.length) :
    s.evaluate' x (i : Int) = N (fun k => Jax.get s.T (k : Int)) s.p i x := by
  have e : N (fun k => Jax.get (Jax.dynamicSlice s.T (i : Int) (s.p + 2)) (k : Int)) s.p 0 x
      = N (fun k => Jax.get s.T (k : Int)) s.p i x := by
    apply N_congr
    intro k hk
    rw [Jax.dynamicSlice_eq _ _ _ (by omega)]
    rw [Jax.get_of_lt _ _ (by simp; omega), Jax.get_of_lt _ _ (by omega)]
    simp
  simp only [evaluate']
  rw [pSpline_eq x hT s.p _ (by rw [Jax.dynamicSlice_eq _ _ _ (by omega)]; simp; omega), e]
  · split
    · rfl
    · rename_i h
      symm
      by_contra hc
      obtain ⟨a, b⟩ := N_support hm hc
      apply h
      refine ⟨a, ?_⟩
      have : ((i : Int) + s.p + 1) = ((i + s.p + 1 : Nat) : Int) := by push_cast; rfl
      rw [this]; exact b.le
  · intro a ha
    rw [Jax.dynamicSlice_eq _ _ _ (by omega)] at ha
    exact List.mem_of_mem_drop (List.mem_of_mem_take ha)

end SplineBasis
end Mrx
