import Verif.Proofs.Forms
import Verif.Spec.Symmetry

/-! # Toroidal shifts of indices and of the extraction matrices -/

set_option linter.unusedSectionVars false

namespace Mrx
open Spec

section index
variable {nz m : Nat} (hz : 0 < nz)
include hz

theorem shiftIndex_flat (a : Nat) {k : Nat} (hk : k < nz) : shiftIndex nz m (a * nz + k) = a * nz + (k + m) % nz := by
  unfold shiftIndex
  rw [Nat.mul_comm a, Nat.mul_add_div hz, Nat.div_eq_of_lt hk, Nat.mul_add_mod, Nat.mod_eq_of_lt hk, Nat.add_zero, Nat.mul_comm]

theorem shiftIndex_div (i : Nat) : shiftIndex nz m i / nz = i / nz := by
  unfold shiftIndex
  rw [Nat.mul_comm, Nat.mul_add_div hz, Nat.div_eq_of_lt (Nat.mod_lt _ hz), Nat.add_zero]

theorem shiftIndex_mod (i : Nat) : shiftIndex nz m i % nz = (i % nz + m) % nz := by
  unfold shiftIndex
  rw [Nat.mul_comm, Nat.mul_add_mod, Nat.mod_mod]

theorem shiftIndex_lt {N i : Nat} (hN : nz ∣ N) (hi : i < N) : shiftIndex nz m i < N := by
  obtain ⟨a, rfl⟩ := hN
  rw [Nat.mul_comm] at hi ⊢
  have := Nat.div_lt_of_lt_mul (by rwa [Nat.mul_comm] at hi : i < nz * a)
  rw [← Nat.div_lt_iff_lt_mul hz, shiftIndex_div hz]
  exact this

theorem le_shiftIndex {a : Nat} (i : Nat) (ha : nz ∣ a) : a ≤ shiftIndex nz m i ↔ a ≤ i := by
  obtain ⟨b, rfl⟩ := ha
  rw [Nat.mul_comm, ← Nat.le_div_iff_mul_le hz, ← Nat.le_div_iff_mul_le hz, shiftIndex_div hz]

theorem shiftIndex_lt_iff {a : Nat} (i : Nat) (ha : nz ∣ a) : shiftIndex nz m i < a ↔ i < a := by
  rw [← not_le, ← not_le, le_shiftIndex hz i ha]

theorem shiftIndex_sub {a i : Nat} (ha : nz ∣ a) (h : a ≤ i) : shiftIndex nz m (i - a) = shiftIndex nz m i - a := by
  obtain ⟨b, rfl⟩ := ha
  have h' := (le_shiftIndex (m := m) hz i (Dvd.intro b rfl)).2 h
  have e : i = nz * b + (i - nz * b) := by omega
  generalize i - nz * b = j at e
  subst e
  unfold shiftIndex
  rw [Nat.mul_add_div hz, Nat.mul_add_mod, Nat.add_mul, Nat.mul_comm nz b]
  omega

theorem shiftIndex_inj {i j : Nat} : shiftIndex nz m i = shiftIndex nz m j ↔ i = j := by
  constructor
  · intro h
    have h1 : i / nz = j / nz := by rw [← shiftIndex_div (m := m) hz, h, shiftIndex_div hz]
    have h2 : (i % nz + m) % nz = (j % nz + m) % nz := by rw [← shiftIndex_mod hz, h, shiftIndex_mod hz]
    have h3 : i % nz = j % nz := by
      have : (i % nz + m) ≡ (j % nz + m) [MOD nz] := h2
      have := Nat.ModEq.add_right_cancel' m this
      unfold Nat.ModEq at this
      rwa [Nat.mod_mod, Nat.mod_mod] at this
    rw [← Nat.div_add_mod i nz, ← Nat.div_add_mod j nz, h1, h3]
  · rintro rfl; rfl

theorem unravel3_shift {a b I : Nat} (h : I < a * b * nz) : Jax.unravelIndex3 (shiftIndex nz m I) a b nz =
    ((Jax.unravelIndex3 I a b nz).1, (Jax.unravelIndex3 I a b nz).2.1, ((Jax.unravelIndex3 I a b nz).2.2 + m) % nz) := by
  have h' := shiftIndex_lt (m := m) hz (Dvd.intro_left (a * b) rfl) h
  unfold Jax.unravelIndex3
  simp only []
  rw [Nat.min_eq_left (by omega), Nat.min_eq_left (by omega), shiftIndex_div hz, shiftIndex_mod hz]

theorem unravel3_lt (a b I : Nat) : (Jax.unravelIndex3 I a b nz).2.2 < nz := by
  unfold Jax.unravelIndex3
  exact Nat.mod_lt _ hz

theorem unravel2_shift {a I : Nat} (h : I < a * nz) : Jax.unravelIndex2 (shiftIndex nz m I) a nz =
    ((Jax.unravelIndex2 I a nz).1, ((Jax.unravelIndex2 I a nz).2 + m) % nz) := by
  have h' := shiftIndex_lt (m := m) hz (Dvd.intro_left a rfl) h
  unfold Jax.unravelIndex2
  simp only []
  rw [Nat.min_eq_left (by omega), Nat.min_eq_left (by omega), shiftIndex_div hz, shiftIndex_mod hz]

theorem unravel2_lt (a I : Nat) : (Jax.unravelIndex2 I a nz).2 < nz := by
  unfold Jax.unravelIndex2
  exact Nat.mod_lt _ hz

theorem ravel3_shift (i j a b : Nat) {k : Nat} (hk : k < nz) : Jax.ravelMultiIndex3 i j ((k + m) % nz) a b nz = shiftIndex nz m (Jax.ravelMultiIndex3 i j k a b nz) := by
  have := Nat.mod_lt (k + m) hz
  unfold Jax.ravelMultiIndex3
  rw [Nat.min_eq_left (show (k + m) % nz ≤ nz - 1 by omega), Nat.min_eq_left (show k ≤ nz - 1 by omega), shiftIndex_flat hz _ hk]

theorem add_mod_inj {i j : Nat} (hi : i < nz) (hj : j < nz) : (i + m) % nz = (j + m) % nz ↔ i = j := by
  have := shiftIndex_inj (m := m) (i := i) (j := j) hz
  unfold shiftIndex at this
  rwa [Nat.div_eq_of_lt hi, Nat.div_eq_of_lt hj, Nat.mod_eq_of_lt hi, Nat.mod_eq_of_lt hj, Nat.zero_mul, Nat.zero_add, Nat.zero_add] at this

/-! ## Forms -/

theorem Dims.unravelIndex_shift (d : Dims) (hk : validDegree d.k) (h1 : d.nz = nz) (h2 : d.dz = nz) {i : Nat} (hi : i < d.n) :
    d.unravelIndex (shiftIndex nz m i) = ((d.unravelIndex i).1, (d.unravelIndex i).2.1, (d.unravelIndex i).2.2.1, ((d.unravelIndex i).2.2.2 + m) % nz) ∧
      (d.unravelIndex i).2.2.2 < nz ∧ nz ∣ d.n ∧ nz ∣ d.n1 ∧ nz ∣ d.n2 := by
  obtain ⟨c, i1, i2, i3, hr, rfl⟩ := d.exists_inRange hk hi
  have hc := hr.comp_lt
  have cz : ∀ c < d.shape.length, (d.cshape c).2.2 = nz := by
    intro c hc
    unfold Dims.cshape Dims.shape at *
    rcases hk with h | h | h | h | h <;> simp [h] at hc ⊢ <;> first | (interval_cases c <;> simp [h1, h2]) | (subst hc; simp [h1, h2])
  have d1 : nz ∣ d.n1 := by
    unfold Dims.n1; rw [h1, h2]; split_ifs <;> exact Dvd.intro_left _ rfl
  have d2 : nz ∣ d.n2 := by
    unfold Dims.n2; rw [h1, h2]; split_ifs <;> first | exact dvd_zero _ | exact Dvd.intro_left _ rfl
  have d3 : nz ∣ d.n3 := by
    unfold Dims.n3; rw [h1, h2]; split_ifs <;> first | exact dvd_zero _ | exact Dvd.intro_left _ rfl
  have dn : nz ∣ d.n := by unfold Dims.n; exact dvd_add (dvd_add d1 d2) d3
  have doff : nz ∣ d.off c := by
    unfold Dims.off; split_ifs <;> first | exact dvd_zero _ | exact d1 | exact dvd_add d1 d2
  have hr' : d.InRange c i1 i2 ((i3 + m) % nz) := ⟨hr.1, hr.2.1, by rw [cz c hc]; exact Nat.mod_lt _ hz⟩
  have hi3 : i3 < nz := by rw [← cz c hc]; exact hr.2.2
  rw [d.unravelIndex_off hk hr]
  refine ⟨?_, hi3, dn, d1, d2⟩
  rw [← d.unravelIndex_off hk hr', cz c hc]
  congr 1
  obtain ⟨o, ho⟩ := doff
  rw [ho, Nat.mul_comm nz o, ← Nat.add_assoc, ← Nat.add_mul, shiftIndex_flat hz _ hi3, Nat.add_mul, Nat.add_assoc]

/-! ## Boundary operators -/

theorem BoundaryOp.element_shift (B : BoundaryOp) (hk : B.Λ.k = 0 ∨ B.Λ.k = 1 ∨ B.Λ.k = 2 ∨ B.Λ.k = 3) (h1 : B.Λ.nz = nz) (h2 : B.Λ.dz = nz) (hty : B.types.2.2 = "none")
    {r c : Nat} (hr : r < B.rowDims.n) (hc : c < B.Λ.n) : B.element (shiftIndex nz m r) (shiftIndex nz m c) = B.element r c := by
  have hv : Dims.validDegree B.Λ.k := by unfold Dims.validDegree; tauto
  have g : getDim B.Λ.nz B.types.2.2 = nz := by rw [hty, h1]; simp [getDim]
  obtain ⟨u1, u2, -⟩ := B.Λ.unravelIndex_shift (m := m) hz hv h1 h2 hc
  obtain ⟨v1, v2, -⟩ := B.rowDims.unravelIndex_shift (m := m) hz (show Dims.validDegree B.Λ.k from hv) g h2 hr
  unfold BoundaryOp.element
  simp only []
  rw [u1, v1]
  simp only []
  have t : ∀ p, BoundaryOp.target B.types.2.2 p = (p : Int) := fun p => by rw [hty]; simp [BoundaryOp.target]
  simp only [t, Nat.cast_inj, add_mod_inj hz v2 u2, shiftIndex_inj hz]

/-! ## Polar extraction -/

namespace PolarOp
variable (P : PolarOp)

theorem innerZeroform_shift {row col nr nt : Nat} (hr : row < 3 * nz) (hc : col < nr * nt * nz) :
    P.innerZeroform (shiftIndex nz m row) (shiftIndex nz m col) nr nt nz = P.innerZeroform row col nr nt nz := by
  unfold innerZeroform
  simp only []
  rw [unravel2_shift hz hr, unravel3_shift hz hc]
  simp only [add_mod_inj hz (unravel3_lt hz nr nt col) (unravel2_lt hz 3 row)]

theorem outerZeroform_shift {row col nr nt : Nat} (hr : row < nr * nt * nz) :
    P.outerZeroform (shiftIndex nz m row) (shiftIndex nz m col) nr nt nz = P.outerZeroform row col nr nt nz := by
  unfold outerZeroform
  simp only []
  rw [unravel3_shift hz hr]
  simp only [ravel3_shift hz _ _ _ _ (unravel3_lt hz nr nt row), shiftIndex_inj hz]

theorem innerOneformR_shift {row col nr nt : Nat} (hr : row < 2 * nz) (hc : col < nr * nt * nz) :
    P.innerOneformR (shiftIndex nz m row) (shiftIndex nz m col) nr nt nz = P.innerOneformR row col nr nt nz := by
  unfold innerOneformR
  simp only []
  rw [unravel2_shift hz hr, unravel3_shift hz hc]
  simp only [add_mod_inj hz (unravel3_lt hz nr nt col) (unravel2_lt hz 2 row)]

theorem innerOneformT_shift {row col nr nt : Nat} (hr : row < 2 * nz) (hc : col < nr * nt * nz) :
    P.innerOneformT (shiftIndex nz m row) (shiftIndex nz m col) nr nt nz = P.innerOneformT row col nr nt nz := by
  unfold innerOneformT
  simp only []
  rw [unravel2_shift hz hr, unravel3_shift hz hc]
  simp only [add_mod_inj hz (unravel3_lt hz nr nt col) (unravel2_lt hz 2 row)]

theorem threeform_shift {row col nr nt : Nat} (hr : row < nr * nt * nz) :
    threeform (shiftIndex nz m row) (shiftIndex nz m col) nr nt nz = threeform row col nr nt nz := by
  unfold threeform
  simp only []
  rw [unravel3_shift hz hr]
  simp only [ravel3_shift hz _ _ _ _ (unravel3_lt hz nr nt row), shiftIndex_inj hz]

variable (h1 : P.Λ.nz = nz) (h2 : P.Λ.dz = nz)
include h1 h2

theorem n_dvd : nz ∣ P.n1 ∧ nz ∣ P.n2 ∧ nz ∣ P.n3 ∧ nz ∣ P.n := by
  have d1 : nz ∣ P.n1 := by unfold n1 discSize ringSize; rw [h1, h2]; split_ifs <;> exact Dvd.intro_left _ rfl
  have d2 : nz ∣ P.n2 := by unfold n2 discSize ringSize; rw [h1, h2]; split_ifs <;> first | exact dvd_zero _ | exact Dvd.intro_left _ rfl
  have d3 : nz ∣ P.n3 := by unfold n3 discSize; rw [h1, h2]; split_ifs <;> first | exact dvd_zero _ | exact Dvd.intro_left _ rfl
  exact ⟨d1, d2, d3, by unfold n; exact dvd_add (dvd_add d1 d2) d3⟩

theorem vectorIndex_shift (row : Nat) : P.vectorIndex (shiftIndex nz m row) = ((P.vectorIndex row).1, shiftIndex nz m (P.vectorIndex row).2) := by
  obtain ⟨d1, d2, -, -⟩ := P.n_dvd hz h1 h2
  unfold vectorIndex
  split
  · rfl
  · simp only [le_shiftIndex hz row d1, le_shiftIndex hz row (dvd_add d1 d2)]
    by_cases a : P.n1 ≤ row
    · by_cases b : P.n1 + P.n2 ≤ row
      · simp only [a, b, if_true, Nat.mul_one]
        rw [shiftIndex_sub hz d2 (by omega), shiftIndex_sub hz d1 (by omega)]
      · simp only [a, b, if_true, if_false, Nat.mul_one, Nat.mul_zero, Nat.sub_zero]
        rw [shiftIndex_sub hz d1 (by omega)]
    · have b : ¬ P.n1 + P.n2 ≤ row := by omega
      simp only [a, b, if_false, Nat.mul_zero, Nat.sub_zero]

theorem vectorIndex_bounds (hk : P.Λ.k = 1 ∨ P.Λ.k = 2) {row : Nat} (hr : row < P.n) :
    ((P.vectorIndex row).1 = 0 ∧ (P.vectorIndex row).2 < P.n1) ∨ ((P.vectorIndex row).1 = 1 ∧ (P.vectorIndex row).2 < P.n2) ∨
      ((P.vectorIndex row).1 = 2 ∧ (P.vectorIndex row).2 < P.n3) := by
  have : ¬ (P.Λ.k = 0 ∨ P.Λ.k = 3) := by omega
  unfold n at hr
  unfold vectorIndex
  rw [if_neg this]
  by_cases a : P.n1 ≤ row
  · by_cases b : P.n1 + P.n2 ≤ row
    · refine Or.inr (Or.inr ⟨by simp only [a, b, if_true], ?_⟩); simp only [a, b, if_true, Nat.mul_one]; omega
    · refine Or.inr (Or.inl ⟨by simp only [a, b, if_true, if_false], ?_⟩); simp only [a, b, if_true, if_false, Nat.mul_one, Nat.mul_zero]; omega
  · have b : ¬ P.n1 + P.n2 ≤ row := by omega
    refine Or.inl ⟨by simp only [a, b, if_false], ?_⟩; simp only [a, b, if_false, Nat.mul_zero]; omega

end PolarOp

theorem Dims.vectorIndex_shift (d : Dims) (hk : validDegree d.k) (h1 : d.nz = nz) (h2 : d.dz = nz) (h0 : 0 < d.n) (col : Nat) :
    d.vectorIndex (shiftIndex nz m col) = ((d.vectorIndex col).1, shiftIndex nz m (d.vectorIndex col).2) := by
  obtain ⟨-, -, -, d1, d2⟩ := d.unravelIndex_shift (m := m) hz hk h1 h2 h0
  unfold Dims.vectorIndex
  split
  · rfl
  · simp only [le_shiftIndex hz col d1, le_shiftIndex hz col (dvd_add d1 d2)]
    by_cases a : d.n1 ≤ col
    · by_cases b : d.n1 + d.n2 ≤ col
      · simp only [a, b, if_true, Nat.mul_one]
        rw [shiftIndex_sub hz d2 (by omega), shiftIndex_sub hz d1 (by omega)]
      · simp only [a, b, if_true, if_false, Nat.mul_one, Nat.mul_zero, Nat.sub_zero]
        rw [shiftIndex_sub hz d1 (by omega)]
    · have b : ¬ d.n1 + d.n2 ≤ col := by omega
      simp only [a, b, if_false, Nat.mul_zero, Nat.sub_zero]

theorem Dims.vectorIndex_bounds (d : Dims) (hk : d.k = 1 ∨ d.k = 2) {col : Nat} (hr : col < d.n) :
    ((d.vectorIndex col).1 = 0 ∧ (d.vectorIndex col).2 < d.n1) ∨ ((d.vectorIndex col).1 = 1 ∧ (d.vectorIndex col).2 < d.n2) ∨
      ((d.vectorIndex col).1 = 2 ∧ (d.vectorIndex col).2 < d.n3) := by
  have : ¬ (d.k = 0 ∨ d.k = 3) := by omega
  unfold n at hr
  unfold vectorIndex
  rw [if_neg this]
  by_cases a : d.n1 ≤ col
  · by_cases b : d.n1 + d.n2 ≤ col
    · refine Or.inr (Or.inr ⟨by simp only [a, b, if_true], ?_⟩); simp only [a, b, if_true, Nat.mul_one]; omega
    · refine Or.inr (Or.inl ⟨by simp only [a, b, if_true, if_false], ?_⟩); simp only [a, b, if_true, if_false, Nat.mul_one, Nat.mul_zero]; omega
  · have b : ¬ d.n1 + d.n2 ≤ col := by omega
    refine Or.inl ⟨by simp only [a, b, if_false], ?_⟩; simp only [a, b, if_false, Nat.mul_zero]; omega

theorem PolarOp.element_shift (P : PolarOp) (hk : P.Λ.k = 0 ∨ P.Λ.k = 1 ∨ P.Λ.k = 2 ∨ P.Λ.k = 3) (h1 : P.Λ.nz = nz) (h2 : P.Λ.dz = nz) (hnr : 3 ≤ P.Λ.nr)
    (hdr : P.Λ.dr ≤ P.Λ.nr) (hdt : P.Λ.dt = P.Λ.nt) {r c : Nat} (hr : r < P.n) (hc : c < P.Λ.n) : P.element (shiftIndex nz m r) (shiftIndex nz m c) = P.element r c := by
  have hv : Dims.validDegree P.Λ.k := by unfold Dims.validDegree; tauto
  have d3 : nz ∣ 3 * nz := Dvd.intro_left _ rfl
  have d2 : nz ∣ 2 * nz := Dvd.intro_left _ rfl
  have outer : ∀ {x t a : Nat}, a * nz ≤ x → x < ((P.Λ.nr - 2 - P.o) * t + a) * nz → x - a * nz < P.Λ.nr * t * nz := by
    intro x t a h h'
    have e : (P.Λ.nr - 2 - P.o) * t * nz ≤ P.Λ.nr * t * nz := Nat.mul_le_mul_right _ (Nat.mul_le_mul_right _ (by omega))
    have : ((P.Λ.nr - 2 - P.o) * t + a) * nz = (P.Λ.nr - 2 - P.o) * t * nz + a * nz := Nat.add_mul _ _ _
    omega
  have three : ∀ {x t : Nat}, x < (P.Λ.dr - 1) * t * nz → x < P.Λ.dr * t * nz := by
    intro x t h
    exact lt_of_lt_of_le h (Nat.mul_le_mul_right _ (Nat.mul_le_mul_right _ (Nat.sub_le _ _)))
  have ev := P.vectorIndex_shift (m := m) hz h1 h2 r
  have ew := P.Λ.vectorIndex_shift (m := m) hz hv h1 h2 (by omega) c
  rcases hk with k | k | k | k
  · have hr0 : r < ((P.Λ.nr - 2 - P.o) * P.Λ.nt + 3) * nz := by
      have := hr; simp only [n, n1, n2, n3, k, discSize, h1] at this; simpa using this
    have hc0 : c < P.Λ.nr * P.Λ.nt * nz := by
      have := hc; simp only [Dims.n, Dims.n1, Dims.n2, Dims.n3, k, h1] at this; simpa using this
    unfold element
    simp only [k, if_true, h1, shiftIndex_lt_iff hz r d3]
    split
    · rename_i h; exact P.innerZeroform_shift hz h hc0
    · rename_i h
      rw [← shiftIndex_sub hz d3 (by omega)]
      exact P.outerZeroform_shift hz (outer (by omega) hr0)
  · have bv := P.vectorIndex_bounds hz h1 h2 (Or.inl k) hr
    have bw := P.Λ.vectorIndex_bounds hz (Or.inl k) hc
    unfold element
    simp only [k, show ¬ (1 : Int) = 0 by decide, if_false, if_true, h1, h2]
    rw [ev, ew]
    generalize P.vectorIndex r = R at bv
    generalize P.Λ.vectorIndex c = C at bw
    obtain ⟨R1, R2⟩ := R
    obtain ⟨C1, C2⟩ := C
    simp only [n1, n2, n3, k, discSize, ringSize, h1, h2, Dims.n1, Dims.n2, Dims.n3, show ¬ (1 : Int) = 0 by decide, if_false, if_true] at bv bw
    simp only [shiftIndex_lt_iff hz R2 d3, shiftIndex_lt_iff hz R2 d2]
    rcases bv with ⟨rfl, b⟩ | ⟨rfl, b⟩ | ⟨rfl, b⟩
    · simp only [if_true]
      rw [PolarOp.threeform_shift hz (three b)]
    · simp only [show ¬ (1 : Nat) = 0 by decide, if_false, if_true]
      split
      · rename_i hh
        rcases bw with ⟨rfl, b'⟩ | ⟨rfl, b'⟩ | ⟨rfl, b'⟩
        · rw [P.innerOneformR_shift hz hh b']; simp
        · rw [P.innerOneformT_shift hz hh b']; simp
        · simp
      · rename_i hh
        rw [← shiftIndex_sub hz d2 (by omega), P.outerZeroform_shift hz (outer (by omega) b)]
    · simp only [show ¬ (2 : Nat) = 0 by decide, show ¬ (2 : Nat) = 1 by decide, if_false]
      split
      · rename_i hh
        rcases bw with ⟨rfl, b'⟩ | ⟨rfl, b'⟩ | ⟨rfl, b'⟩
        · simp
        · simp
        · rw [P.innerZeroform_shift hz hh b']
      · rename_i hh
        rw [← shiftIndex_sub hz d3 (by omega), P.outerZeroform_shift hz (outer (by omega) b)]
  · have bv := P.vectorIndex_bounds hz h1 h2 (Or.inr k) hr
    have bw := P.Λ.vectorIndex_bounds hz (Or.inr k) hc
    unfold element
    simp only [k, show ¬ (2 : Int) = 0 by decide, show ¬ (2 : Int) = 1 by decide, if_false, if_true, h1, h2]
    rw [ev, ew]
    generalize P.vectorIndex r = R at bv
    generalize P.Λ.vectorIndex c = C at bw
    obtain ⟨R1, R2⟩ := R
    obtain ⟨C1, C2⟩ := C
    simp only [n1, n2, n3, k, discSize, ringSize, h1, h2, Dims.n1, Dims.n2, Dims.n3, show ¬ (2 : Int) = 0 by decide, show ¬ (2 : Int) = 1 by decide, if_false, if_true] at bv bw
    simp only [shiftIndex_lt_iff hz R2 d2]
    rcases bv with ⟨rfl, b⟩ | ⟨rfl, b⟩ | ⟨rfl, b⟩
    · simp only [if_true]
      split
      · rename_i hh
        rcases bw with ⟨rfl, b'⟩ | ⟨rfl, b'⟩ | ⟨rfl, b'⟩
        · rw [P.innerOneformT_shift hz hh b']; simp
        · rw [P.innerOneformR_shift hz hh b']; simp
        · simp
      · rename_i hh
        rw [← shiftIndex_sub hz d2 (by omega), P.outerZeroform_shift hz (outer (by omega) b)]
    · simp only [show ¬ (1 : Nat) = 0 by decide, if_false, if_true]
      rw [PolarOp.threeform_shift hz (three b)]
    · simp only [show ¬ (2 : Nat) = 0 by decide, show ¬ (2 : Nat) = 1 by decide, if_false]
      rw [PolarOp.threeform_shift hz (three b)]
  · have hr0 : r < (P.Λ.dr - 1) * P.Λ.dt * nz := by
      have := hr; simp only [n, n1, n2, n3, k, h2] at this; simpa using this
    unfold element
    simp only [k, show ¬ (3 : Int) = 0 by decide, show ¬ (3 : Int) = 1 by decide, show ¬ (3 : Int) = 2 by decide, if_false, if_true, h1]
    refine PolarOp.threeform_shift hz (lt_of_lt_of_le hr0 ?_)
    rw [hdt]
    exact Nat.mul_le_mul_right _ (Nat.mul_le_mul_right _ (by omega))

end index

end Mrx
