import Verif.Spec.Polar
import Mathlib.Algebra.BigOperators.Fin
import Mathlib.Tactic.Linarith

/-! # Primitives of coefficient arrays (discrete Poincaré lemmas) -/

namespace Mrx.Arr
open Finset Spec

/-- Partial sums of a cyclic sequence with zero sum are a cyclic primitive. -/
theorem prim_cyclic {M : Nat} {f : Nat → ℝ} (h : ∑ j ∈ range M, f j = 0) {j : Nat} (hj : j < M) :
    ∑ k ∈ range ((j + 1) % M), f k - ∑ k ∈ range j, f k = f j := by
  rcases Nat.lt_or_ge (j + 1) M with h1 | h1
  · rw [Nat.mod_eq_of_lt h1, sum_range_succ]; ring
  · have e : j + 1 = M := by omega
    rw [e, Nat.mod_self]
    rw [← e, sum_range_succ] at h
    simp only [range_zero, sum_empty]; linarith

/-- A cyclic difference sums to zero. -/
theorem sum_cyclic {M : Nat} (f : Nat → ℝ) : ∑ j ∈ range M, (f ((j + 1) % M) - f j) = 0 := by
  rcases M with _ | M
  · simp
  · rw [sum_range_succ]
    have : ∀ j ∈ range M, f ((j + 1) % (M + 1)) - f j = f (j + 1) - f j := by
      intro j hj
      rw [Nat.mod_eq_of_lt (by have := mem_range.mp hj; omega)]
    rw [sum_congr rfl this, sum_range_sub, Nat.mod_self]; ring

/-- A sequence whose cyclic differences vanish is constant. -/
theorem const_cyclic {M : Nat} {f : Nat → ℝ} (h : ∀ j < M, f ((j + 1) % M) - f j = 0) : ∀ j < M, f j = f 0 := by
  intro j hj
  induction j with
  | zero => rfl
  | succ j ih =>
    have := h j (by omega)
    rw [Nat.mod_eq_of_lt hj] at this
    rw [← ih (by omega)]; linarith

theorem const_free {N : Nat} {f : Nat → ℝ} (h : ∀ j, j + 1 < N → f ((j + 1) % N) - f j = 0) : ∀ j < N, f j = f 0 := by
  intro j hj
  induction j with
  | zero => rfl
  | succ j ih =>
    have := h j (by omega)
    rw [Nat.mod_eq_of_lt hj] at this
    rw [← ih (by omega)]; linarith

section H1
variable {N M L : Nat} {a0 a1 a2 : Nat → Nat → Nat → ℝ}

/-- A curl-free triple of arrays. -/
structure CurlFree (N M L : Nat) (a0 a1 a2 : Nat → Nat → Nat → ℝ) : Prop where
  h0 : ∀ i < N, ∀ j < M, ∀ l < L, Δt M a2 i j l - Δz L a1 i j l = 0
  h1 : ∀ i < N - 1, ∀ j < M, ∀ l < L, Δz L a0 i j l - Δr N a2 i j l = 0
  h2 : ∀ i < N - 1, ∀ j < M, ∀ l < L, Δr N a1 i j l - Δt M a0 i j l = 0

/-- The scalar potential: the integral from the corner, radially last. -/
def pot (a0 a1 a2 : Nat → Nat → Nat → ℝ) (i j l : Nat) : ℝ :=
  ∑ k ∈ range i, a0 k j l + ∑ k ∈ range j, a1 0 k l + ∑ k ∈ range l, a2 0 0 k

/-- The poloidal circulation does not depend on the axial index. -/
theorem circ_t (h : CurlFree N M L a0 a1 a2) (hN : 0 < N) {l : Nat} (hl : l < L) :
    ∑ j ∈ range M, a1 0 j l = ∑ j ∈ range M, a1 0 j 0 := by
  refine const_cyclic (f := fun l => ∑ j ∈ range M, a1 0 j l) (fun l hl => ?_) l hl
  rw [← sum_sub_distrib, sum_congr rfl fun j hj => show a1 0 j ((l + 1) % L) - a1 0 j l = a2 0 ((j + 1) % M) l - a2 0 j l by
    have := h.h0 0 hN j (mem_range.mp hj) l hl
    simp only [Δt, Δz] at this; linarith]
  exact sum_cyclic fun j => a2 0 j l

/-- The axial circulation does not depend on the radial index. -/
theorem circ_z (h : CurlFree N M L a0 a1 a2) {i j : Nat} (hi : i < N) (hj : j < M) :
    ∑ l ∈ range L, a2 i j l = ∑ l ∈ range L, a2 0 j l := by
  refine const_free (f := fun i => ∑ l ∈ range L, a2 i j l) (fun i hi => ?_) i hi
  rw [← sum_sub_distrib, sum_congr rfl fun l hl => show a2 ((i + 1) % N) j l - a2 i j l = a0 i j ((l + 1) % L) - a0 i j l by
    have := h.h1 i (by omega) j hj l (mem_range.mp hl)
    simp only [Δr, Δz] at this; linarith]
  exact sum_cyclic fun l => a0 i j l

theorem tele {N : Nat} (f : Nat → ℝ) {i : Nat} (hi : i < N) : ∑ k ∈ range i, (f ((k + 1) % N) - f k) = f i - f 0 := by
  rw [← sum_range_sub]
  refine sum_congr rfl fun k hk => ?_
  rw [Nat.mod_eq_of_lt (by have := mem_range.mp hk; omega)]

theorem pot_grad (h : CurlFree N M L a0 a1 a2) (s1 : ∑ j ∈ range M, a1 0 j 0 = 0) (s2 : ∑ l ∈ range L, a2 0 0 l = 0) :
    (∀ i < N - 1, ∀ j < M, ∀ l < L, Δr N (pot a0 a1 a2) i j l = a0 i j l) ∧
    (∀ i < N, ∀ j < M, ∀ l < L, Δt M (pot a0 a1 a2) i j l = a1 i j l) ∧
    (∀ i < N, ∀ j < M, ∀ l < L, Δz L (pot a0 a1 a2) i j l = a2 i j l) := by
  refine ⟨fun i hi j hj l hl => ?_, fun i hi j hj l hl => ?_, fun i hi j hj l hl => ?_⟩
  · simp only [Δr, pot]
    rw [Nat.mod_eq_of_lt (by omega), sum_range_succ]; ring
  · simp only [Δt, pot]
    have e1 : ∑ k ∈ range i, a0 k ((j + 1) % M) l - ∑ k ∈ range i, a0 k j l = a1 i j l - a1 0 j l := by
      rw [← sum_sub_distrib, ← tele (fun i => a1 i j l) hi]
      refine sum_congr rfl fun k hk => ?_
      have := h.h2 k (by have := mem_range.mp hk; omega) j hj l hl
      simp only [Δr, Δt] at this; linarith
    have e2 := prim_cyclic (f := fun k => a1 0 k l) ((circ_t h (by omega) hl).trans s1) hj
    linarith
  · simp only [Δz, pot]
    have e1 : ∑ k ∈ range i, a0 k j ((l + 1) % L) - ∑ k ∈ range i, a0 k j l = a2 i j l - a2 0 j l := by
      rw [← sum_sub_distrib, ← tele (fun i => a2 i j l) hi]
      refine sum_congr rfl fun k hk => ?_
      have := h.h1 k (by have := mem_range.mp hk; omega) j hj l hl
      simp only [Δr, Δz] at this; linarith
    have e2 : ∑ k ∈ range j, a1 0 k ((l + 1) % L) - ∑ k ∈ range j, a1 0 k l = a2 0 j l - a2 0 0 l := by
      rw [← sum_sub_distrib, ← tele (fun j => a2 0 j l) hj]
      refine sum_congr rfl fun k hk => ?_
      have := h.h0 0 (by omega) k (by have := mem_range.mp hk; omega) l hl
      simp only [Δt, Δz] at this; linarith
    have e3 := prim_cyclic (f := fun k => a2 0 0 k) s2 hl
    linarith

/-- A scalar without poloidal and axial differences on a ring is constant there. -/
theorem const_ring {ψ : Nat → Nat → Nat → ℝ} {i : Nat} (ht : ∀ j < M, ∀ l < L, Δt M ψ i j l = 0) (hz : ∀ j < M, ∀ l < L, Δz L ψ i j l = 0)
    {j l : Nat} (hj : j < M) (hl : l < L) : ψ i j l = ψ i 0 0 := by
  have e1 := const_cyclic (f := fun j => ψ i j l) (fun j hj => ht j hj l hl) j hj
  have e2 := const_cyclic (f := fun l => ψ i 0 l) (fun l hl => hz 0 (by omega) l hl) l hl
  exact e1.trans e2

end H1

section H3
variable {N M L : Nat} {f : Nat → Nat → Nat → ℝ}

/-- Sum of all coefficients of a 3-form: its integral. -/
def total (N M L : Nat) (f : Nat → Nat → Nat → ℝ) : ℝ := ∑ i ∈ range (N - 1), ∑ j ∈ range M, ∑ l ∈ range L, f i j l

def div (N M L : Nat) (B0 B1 B2 : Nat → Nat → Nat → ℝ) (i j l : Nat) : ℝ := Δr N B0 i j l + Δt M B1 i j l + Δz L B2 i j l

theorem total_div (B0 B1 B2 : Nat → Nat → Nat → ℝ) : total N M L (div N M L B0 B1 B2)
    = ∑ j ∈ range M, ∑ l ∈ range L, (B0 (N - 1) j l - B0 0 j l) := by
  unfold total div
  simp only [sum_add_distrib]
  have z1 : ∑ i ∈ range (N - 1), ∑ j ∈ range M, ∑ l ∈ range L, Δt M B1 i j l = 0 := by
    refine sum_eq_zero fun i _ => ?_
    rw [sum_comm]
    exact sum_eq_zero fun l _ => sum_cyclic fun j => B1 i j l
  have z2 : ∑ i ∈ range (N - 1), ∑ j ∈ range M, ∑ l ∈ range L, Δz L B2 i j l = 0 :=
    sum_eq_zero fun i _ => sum_eq_zero fun j _ => sum_cyclic fun l => B2 i j l
  rw [z1, z2, add_zero, add_zero, sum_comm]
  refine sum_congr rfl fun j _ => ?_
  rw [sum_comm]
  refine sum_congr rfl fun l _ => ?_
  rcases N with _ | N
  · simp
  · exact tele (fun i => B0 i j l) (by omega)

/-- Primitive without a condition on the outer boundary. -/
theorem div_free : ∀ i < N - 1, ∀ j < M, ∀ l < L,
    div N M L (fun i j l => ∑ k ∈ range i, f k j l) (fun _ _ _ => 0) (fun _ _ _ => 0) i j l = f i j l := by
  intro i hi j hj l hl
  simp only [div, Δr, Δt, Δz]
  rw [Nat.mod_eq_of_lt (by omega), sum_range_succ]; ring

/-- Primitive vanishing radially on both boundaries, angular components only on ring `N - 2`. -/
theorem div_closed (hN : 2 ≤ N) (hM : 0 < M) (h : total N M L f = 0) :
    ∃ B0 B1 B2 : Nat → Nat → Nat → ℝ, (∀ i < N - 1, ∀ j < M, ∀ l < L, div N M L B0 B1 B2 i j l = f i j l) ∧
      (∀ j < M, ∀ l < L, B0 0 j l = 0) ∧ (∀ j < M, ∀ l < L, B0 (N - 1) j l = 0) ∧
      (∀ i < N - 2, ∀ j < M, ∀ l < L, B1 i j l = 0 ∧ B2 i j l = 0) ∧
      (∀ j < M, ∀ l < L, 3 ≤ N → B0 1 j l = f 0 j l) := by
  obtain ⟨g, hg⟩ : ∃ g : Nat → Nat → ℝ, ∀ j l, g j l = ∑ i ∈ range (N - 1), f i j l := ⟨_, fun _ _ => rfl⟩
  obtain ⟨e, he⟩ : ∃ e : Nat → ℝ, ∀ l, e l = ∑ j ∈ range M, g j l := ⟨_, fun _ => rfl⟩
  have he0 : ∑ l ∈ range L, e l = 0 := by
    rw [← h]; unfold total
    simp only [he, hg]
    rw [sum_comm, sum_comm (s := range (N - 1))]
    refine sum_congr rfl fun j _ => ?_
    rw [sum_comm]
  obtain ⟨C2, hC2⟩ : ∃ C2 : Nat → Nat → ℝ, ∀ j l, C2 j l = if j = 0 then ∑ k ∈ range l, e k else 0 := ⟨_, fun _ _ => rfl⟩
  obtain ⟨C1, hC1⟩ : ∃ C1 : Nat → Nat → ℝ, ∀ j l, C1 j l = ∑ k ∈ range j, (g k l - if k = 0 then e l else 0) := ⟨_, fun _ _ => rfl⟩
  have key : ∀ j < M, ∀ l < L, (C1 ((j + 1) % M) l - C1 j l) + (C2 j ((l + 1) % L) - C2 j l) = g j l := by
    intro j hj l hl
    have q1 : C1 ((j + 1) % M) l - C1 j l = g j l - if j = 0 then e l else 0 := by
      rw [hC1, hC1]
      refine prim_cyclic (f := fun k => g k l - if k = 0 then e l else 0) ?_ hj
      rw [sum_sub_distrib, ← he, sum_ite_eq' (range M) 0 (fun _ => e l), if_pos (mem_range.mpr hM), sub_self]
    have q2 : C2 j ((l + 1) % L) - C2 j l = if j = 0 then e l else 0 := by
      rw [hC2, hC2]
      split_ifs
      · exact prim_cyclic he0 hl
      · simp
    rw [q1, q2]; ring
  obtain ⟨B1, hB1⟩ : ∃ B1 : Nat → Nat → Nat → ℝ, ∀ i j l, B1 i j l = if i = N - 2 then C1 j l else 0 := ⟨_, fun _ _ _ => rfl⟩
  obtain ⟨B2, hB2⟩ : ∃ B2 : Nat → Nat → Nat → ℝ, ∀ i j l, B2 i j l = if i = N - 2 then C2 j l else 0 := ⟨_, fun _ _ _ => rfl⟩
  obtain ⟨B0, hB0⟩ : ∃ B0 : Nat → Nat → Nat → ℝ, ∀ i j l, B0 i j l = ∑ k ∈ range i, (f k j l - Δt M B1 k j l - Δz L B2 k j l) :=
    ⟨_, fun _ _ _ => rfl⟩
  have keyi : ∀ i, ∀ j < M, ∀ l < L, Δt M B1 i j l + Δz L B2 i j l = if i = N - 2 then g j l else 0 := by
    intro i j hj l hl
    simp only [Δt, Δz, hB1, hB2]
    split_ifs
    · exact key j hj l hl
    · simp
  refine ⟨B0, B1, B2, fun i hi j hj l hl => ?_, fun j hj l hl => ?_, fun j hj l hl => ?_, fun i hi j hj l hl => ?_,
    fun j hj l hl h3 => ?_⟩
  · unfold div
    have : Δr N B0 i j l = f i j l - Δt M B1 i j l - Δz L B2 i j l := by
      simp only [Δr]
      rw [Nat.mod_eq_of_lt (by omega), hB0, hB0, sum_range_succ]; ring
    rw [this]; ring
  · rw [hB0]; simp
  · rw [hB0, sum_congr rfl fun k _ => show f k j l - Δt M B1 k j l - Δz L B2 k j l = f k j l - if k = N - 2 then g j l else 0 by
      rw [← keyi k j hj l hl]; ring]
    rw [sum_sub_distrib, ← hg, sum_ite_eq' (range (N - 1)) (N - 2) (fun _ => g j l), if_pos (mem_range.mpr (by omega)), sub_self]
  · have : ¬ i = N - 2 := by omega
    rw [hB1, hB2, if_neg this, if_neg this]; exact ⟨rfl, rfl⟩
  · rw [hB0, sum_range_one]
    have := keyi 0 j hj l hl
    rw [if_neg (by omega)] at this
    linarith

end H3
end Mrx.Arr
