import Verif.Proofs.Polar

/-! # The range of the transposed polar extraction operator -/

set_option linter.unusedSectionVars false

namespace Mrx
open Finset Jax Spec Matrix Real

theorem thetaJs_eq (nt j : Nat) : thetaJs nt j = ang nt j := by unfold thetaJs ang; ring

theorem ang_mod (nt j : Nat) (h : 0 < nt) :
    cos (ang nt (j % nt)) = cos (ang nt j) ∧ sin (ang nt (j % nt)) = sin (ang nt j) := by
  have hn : (nt : ℝ) ≠ 0 := by positivity
  have e : ang nt j = ang nt (j % nt) + (j / nt : ℕ) * (2 * π) := by
    unfold ang
    have : (j : ℝ) = (j % nt : ℕ) + nt * (j / nt : ℕ) := by exact_mod_cast (Nat.mod_add_div j nt).symm
    rw [this]; field_simp
  rw [e]
  exact ⟨(cos_add_nat_mul_two_pi _ _).symm, (sin_add_nat_mul_two_pi _ _).symm⟩

section
variable {nt j : Nat} (hj : j < nt)
include hj

theorem xi0 {p : Nat} : (getXi nt).get p 0 j = 1 / 3 := by
  simp [Xi.get, getXi]

theorem xi1 : (getXi nt).get 0 1 j = 1 / 3 + 1 / 3 * cos (ang nt j) ∧
    (getXi nt).get 1 1 j = 1 / 3 + (-1 / 6 * cos (ang nt j) + √3 / 6 * sin (ang nt j)) ∧
    (getXi nt).get 2 1 j = 1 / 3 + (-1 / 6 * cos (ang nt j) + -√3 / 6 * sin (ang nt j)) := by
  have : min j (nt - 1) = j := by omega
  simp [Xi.get, getXi, this, thetaJs_eq]
end

/-- Every coefficient vector is determined by its array. -/
theorem ext_coef {d : Dims} (hk : Dims.validDegree d.k) {v w : Fin d.n → ℝ}
    (h : ∀ c i j l, d.InRange c i j l → coef d v c i j l = coef d w c i j l) : v = w := by
  funext a
  obtain ⟨h1, h2⟩ := d.unravelIndex_inRange hk a.2
  have := h _ _ _ _ h1
  rw [PolarOp.coef_eq hk h1, PolarOp.coef_eq hk h1] at this
  have e : (⟨_, d.ravelIndex_lt hk h1⟩ : Fin d.n) = a := Fin.ext h2
  rwa [e] at this

/-- Decode a flat index. -/
theorem dec_flat {i j l t z : Nat} (hj : j < t) (hl : l < z) :
    ((i * t + j) * z + l) / z / t = i ∧ ((i * t + j) * z + l) / z % t = j ∧ ((i * t + j) * z + l) % z = l := by
  have e1 : ((i * t + j) * z + l) / z = i * t + j := by
    rw [Nat.mul_comm _ z, Nat.mul_add_div (by omega), Nat.div_eq_of_lt hl, Nat.add_zero]
  have e3 : ((i * t + j) * z + l) % z = l := by
    rw [Nat.mul_comm _ z, Nat.mul_add_mod, Nat.mod_eq_of_lt hl]
  refine ⟨?_, ?_, e3⟩ <;> rw [e1]
  · rw [Nat.mul_comm, Nat.mul_add_div (by omega), Nat.div_eq_of_lt hj, Nat.add_zero]
  · rw [Nat.mul_comm, Nat.mul_add_mod, Nat.mod_eq_of_lt hj]

theorem dec2 {p l z : Nat} (hl : l < z) : (p * z + l) / z = p ∧ (p * z + l) % z = l := by
  constructor
  · rw [Nat.mul_comm, Nat.mul_add_div (by omega), Nat.div_eq_of_lt hl, Nat.add_zero]
  · rw [Nat.mul_comm, Nat.mul_add_mod, Nat.mod_eq_of_lt hl]

/-- Flat function of three indices. -/
def enc (t z : Nat) (C : Nat → Nat → Nat → ℝ) (m : Nat) : ℝ := C (m / z / t) (m / z % t) (m % z)

theorem enc_flat {i j l t z : Nat} (hj : j < t) (hl : l < z) (C : Nat → Nat → Nat → ℝ) :
    enc t z C ((i * t + j) * z + l) = C i j l := by
  obtain ⟨a, b, c⟩ := dec_flat (i := i) hj hl
  unfold enc; rw [a, b, c]

/-- `q` control rows of length `z` followed by an array. -/
def encW (q t z : Nat) (w : Nat → Nat → ℝ) (C : Nat → Nat → Nat → ℝ) (m : Nat) : ℝ :=
  if m < q * z then w (m / z) (m % z) else enc t z C (m - q * z)

theorem encW_w {q p l t z : Nat} (hp : p < q) (hl : l < z) (w : Nat → Nat → ℝ) (C : Nat → Nat → Nat → ℝ) :
    encW q t z w C (p * z + l) = w p l := by
  obtain ⟨a, b⟩ := dec2 (p := p) hl
  unfold encW
  have : p * z + l < q * z := by
    calc p * z + l < p * z + z := by omega
      _ = (p + 1) * z := by ring
      _ ≤ q * z := Nat.mul_le_mul_right z hp
  rw [if_pos this, a, b]

theorem encW_C {q i j l t z : Nat} (hj : j < t) (hl : l < z) (w : Nat → Nat → ℝ) (C : Nat → Nat → Nat → ℝ) :
    encW q t z w C (q * z + ((i * t + j) * z + l)) = C i j l := by
  unfold encW; rw [if_neg (by omega), Nat.add_sub_cancel_left, enc_flat hj hl]

theorem ext0_of (n : Nat) (U : Nat → ℝ) {m : Nat} (h : m < n) : ext0 (fun r : Fin n => U r) m = U m := by
  unfold ext0; rw [dif_pos h]

theorem sqrt3_sq : √3 * √3 = 3 := Real.mul_self_sqrt (by norm_num)

namespace PolarOp
variable (P : PolarOp) (hs : P.Std) (hx : P.ξ = getXi P.Λ.nt)
include hs hx

/-! ### disc values -/

theorem discVal_polar0 (z : Nat) (U : Nat → ℝ) : Polar0 P.Λ.nr P.Λ.nt z P.zeroBc
    (fun i j l => P.discVal U P.Λ.nt z i j l) := by
  have hnr := hs.nr
  refine ⟨⟨fun l => (U (0 * z + l) + U (1 * z + l) + U (2 * z + l)) / 3,
    fun l => U (0 * z + l) / 3 - U (1 * z + l) / 6 - U (2 * z + l) / 6,
    fun l => √3 / 6 * (U (1 * z + l) - U (2 * z + l)), fun j hj l _ => ⟨?_, ?_⟩⟩, ?_⟩
  · simp only [discVal, hx, sum_range_succ, range_zero, sum_empty, xi0 hj]
    simp; ring
  · obtain ⟨a, b, c⟩ := xi1 hj
    simp only [discVal, hx, sum_range_succ, range_zero, sum_empty, a, b, c]
    simp; ring
  · intro hb j hj l _
    have : P.o = 1 := by simp [o, hb]
    simp only [discVal]
    rw [if_neg (by omega), if_neg (by omega), add_zero]

theorem discVal_inv {z : Nat} {C : Nat → Nat → Nat → ℝ} (h : Polar0 P.Λ.nr P.Λ.nt z P.zeroBc C) :
    ∃ U : Nat → ℝ, ∀ (U' : Nat → ℝ), (∀ m < P.discSize P.Λ.nt z, U' m = U m) →
      ∀ i < P.Λ.nr, ∀ j < P.Λ.nt, ∀ l < z, P.discVal U' P.Λ.nt z i j l = C i j l := by
  have hnr := hs.nr
  have ho := P.o_le
  obtain ⟨⟨a, b, c, h01⟩, hd⟩ := h
  let w : Nat → Nat → ℝ := fun p l => if p = 0 then a l + 2 * b l
    else if p = 1 then a l - b l + √3 * c l else a l - b l - √3 * c l
  refine ⟨encW 3 P.Λ.nt z w (fun i j l => C (i + 2) j l), fun U' hU i hi j hj l hl => ?_⟩
  have hsz := P.discSize_eq P.Λ.nt z
  have hw : ∀ p < 3, U' (p * z + l) = w p l := by
    intro p hp
    rw [hU, encW_w hp hl]
    have : p * z ≤ 2 * z := Nat.mul_le_mul_right _ (by omega)
    omega
  obtain ⟨e0, e1⟩ := h01 j hj l hl
  obtain ⟨xa, xb, xc⟩ := xi1 hj
  unfold discVal
  rcases (show i = 0 ∨ i = 1 ∨ 2 ≤ i by omega) with rfl | rfl | h2
  · simp only [hx, sum_range_succ, range_zero, sum_empty, xi0 hj]
    rw [hw 0 (by omega), hw 1 (by omega), hw 2 (by omega), e0]
    simp [w]; ring
  · simp only [hx, sum_range_succ, range_zero, sum_empty, xa, xb, xc]
    rw [hw 0 (by omega), hw 1 (by omega), hw 2 (by omega), e1]
    simp [w]; linear_combination (c l * sin (ang P.Λ.nt j) / 3) * sqrt3_sq
  · rw [if_neg (by omega), zero_add]
    by_cases h3 : i < P.Λ.nr - P.o
    · rw [if_pos ⟨h2, h3⟩, hU, encW_C hj hl, Nat.sub_add_cancel h2]
      have := flat_lt (show i - 2 < P.Λ.nr - 2 - P.o by omega) hj hl
      omega
    · rw [if_neg (by omega)]
      have hz : P.zeroBc = true := by
        by_contra hb
        simp only [o] at h3
        rw [if_neg hb] at h3; omega
      have : P.o = 1 := by simp [o, hz]
      have := hd hz j hj l hl
      rw [show i = P.Λ.nr - 1 by omega, this]

/-! ### ring values -/

theorem ringR_eq (U : Nat → ℝ) {j l : Nat} (hj : j < P.Λ.nt) : P.ringR U P.Λ.nz j l =
    -(U (0 * P.Λ.nz + l) + U (1 * P.Λ.nz + l)) / 6 * cos (ang P.Λ.nt j)
      + √3 / 6 * (U (0 * P.Λ.nz + l) - U (1 * P.Λ.nz + l)) * sin (ang P.Λ.nt j) := by
  obtain ⟨a, b, c⟩ := xi1 hj
  simp only [ringR, hx, sum_range_succ, range_zero, sum_empty, xi0 hj, Nat.zero_add]
  rw [b, c]; ring

theorem ringT_eq (U : Nat → ℝ) {j l : Nat} (hj : j < P.Λ.nt) : P.ringT U P.Λ.nt P.Λ.nz j l =
    -(U (0 * P.Λ.nz + l) + U (1 * P.Λ.nz + l)) / 6 * (cos (ang P.Λ.nt (j + 1)) - cos (ang P.Λ.nt j))
      + √3 / 6 * (U (0 * P.Λ.nz + l) - U (1 * P.Λ.nz + l))
        * (sin (ang P.Λ.nt (j + 1)) - sin (ang P.Λ.nt j)) := by
  obtain ⟨a, b, c⟩ := xi1 hj
  obtain ⟨a', b', c'⟩ := xi1 (Nat.mod_lt (j + 1) (show 0 < P.Λ.nt by omega))
  obtain ⟨m1, m2⟩ := ang_mod P.Λ.nt (j + 1) (by omega)
  rw [m1, m2] at b' c'
  simp only [ringT, hx, sum_range_succ, range_zero, sum_empty, Nat.zero_add]
  rw [b, c, b', c']; ring

/-- Weights for a given covector. -/
noncomputable def _root_.Mrx.ringW (b c : Nat → ℝ) (p l : Nat) : ℝ :=
  if p = 0 then -3 * b l + √3 * c l else -3 * b l - √3 * c l

omit hs hx in
theorem ringW_b (b c : Nat → ℝ) (l : Nat) : -(ringW b c 0 l + ringW b c 1 l) / 6 = b l ∧
    √3 / 6 * (ringW b c 0 l - ringW b c 1 l) = c l := by
  simp only [ringW]
  constructor
  · simp; ring
  · simp; linear_combination (c l / 3) * sqrt3_sq

/-! ### the range -/


omit hx in
theorem coefv (hk : P.Λ.k = -1) (u : Fin P.n → ℝ) {c i j l : Nat} (hc : c < 3) (hi : i < P.Λ.nr) (hj : j < P.Λ.nt)
    (hl : l < P.Λ.nz) : coef P.Λ (P.matrixᵀ *ᵥ u) c i j l =
      P.discVal (fun m => ext0 u (c * P.discSize P.Λ.nt P.Λ.nz + m)) P.Λ.nt P.Λ.nz i j l := by
  obtain ⟨b0, b1, b2⟩ := P.vectorIndex_block (by omega) (by omega)
  have e1 : P.n1 = P.discSize P.Λ.nt P.Λ.nz := by simp [n1, hk]
  have e2 : P.n2 = P.discSize P.Λ.nt P.Λ.nz := by simp [n2, hk]
  have e3 : P.n3 = P.discSize P.Λ.nt P.Λ.nz := by simp [n3, hk]
  have hin : P.Λ.InRange c i j l := (P.inRange_iff hs).mpr ⟨by simpa [Dims.shape, hk] using hc,
      by interval_cases c <;> simpa [Dims.cshape, Dims.shape, hk] using hi, hj,
      by interval_cases c <;> simpa [Dims.cshape, Dims.shape, hk] using hl⟩
  have hcf := (P.col_flat hs hin).1
  have hz : (P.Λ.cshape c).2.2 = P.Λ.nz := by interval_cases c <;> simp [Dims.cshape, Dims.shape, hk]
  rw [hz] at hcf
  rw [coef_eq hs.k hin, P.transpose_mulVec, P.sum_blocks, ← P.sum_disc hs.nr hi hj hl]
  interval_cases c
  · rw [sum_eq_zero (s := range P.n2), sum_eq_zero (s := range P.n3), add_zero, add_zero, ← e1]
    · refine sum_congr rfl fun r hr => ?_
      rw [mem_range] at hr
      simp [element, hk, b0 r hr, hcf]
    · intro r hr; rw [mem_range] at hr
      simp [element, hk, b2 r hr, hcf]
    · intro r hr; rw [mem_range] at hr
      simp [element, hk, b1 r hr, hcf]
  · rw [sum_eq_zero (s := range P.n1), sum_eq_zero (s := range P.n3), add_zero, zero_add, ← e2]
    · refine sum_congr rfl fun r hr => ?_
      rw [mem_range] at hr
      simp [element, hk, b1 r hr, hcf]
      rw [e1, e2]
    · intro r hr; rw [mem_range] at hr
      simp [element, hk, b2 r hr, hcf]
    · intro r hr; rw [mem_range] at hr
      simp [element, hk, b0 r hr, hcf]
  · rw [sum_eq_zero (s := range P.n1), sum_eq_zero (s := range P.n2), zero_add, zero_add, ← e3]
    · refine sum_congr rfl fun r hr => ?_
      rw [mem_range] at hr
      simp [element, hk, b2 r hr, hcf]
      rw [e1, e2, e3, two_mul]
    · intro r hr; rw [mem_range] at hr
      simp [element, hk, b1 r hr, hcf]
    · intro r hr; rw [mem_range] at hr
      simp [element, hk, b0 r hr, hcf]

omit hx in
theorem polar0_congr {z : Nat} {C C' : Nat → Nat → Nat → ℝ} (h : ∀ i < P.Λ.nr, ∀ j < P.Λ.nt, ∀ l < z, C i j l = C' i j l)
    (hC : Polar0 P.Λ.nr P.Λ.nt z P.zeroBc C') : Polar0 P.Λ.nr P.Λ.nt z P.zeroBc C := by
  have hnr := hs.nr
  obtain ⟨⟨a, b, c, h0⟩, h1⟩ := hC
  refine ⟨⟨a, b, c, fun j hj l hl => ?_⟩, fun hb j hj l hl => ?_⟩
  · rw [h 0 (by omega) j hj l hl, h 1 (by omega) j hj l hl]; exact h0 j hj l hl
  · rw [h _ (by omega) j hj l hl]; exact h1 hb j hj l hl

theorem range_sub (u : Fin P.n → ℝ) : PolarForm P.Λ.k P.Λ.nr P.Λ.nt P.Λ.nz P.Λ.dz P.zeroBc (coef P.Λ (P.matrixᵀ *ᵥ u)) := by
  have hnr := hs.nr
  have hdr := hs.dr
  unfold PolarForm
  rcases id hs.k with hk | hk | hk | hk | hk
  · rw [if_pos hk]
    exact P.polar0_congr hs (fun i hi j hj l hl => P.coef0 hs u hk hi hj hl) (P.discVal_polar0 hs hx _ _)
  · rw [if_neg (by omega), if_pos hk]
    refine ⟨⟨⟨fun l => -(ext0 u (P.n1 + (0 * P.Λ.nz + l)) + ext0 u (P.n1 + (1 * P.Λ.nz + l))) / 6,
      fun l => √3 / 6 * (ext0 u (P.n1 + (0 * P.Λ.nz + l)) - ext0 u (P.n1 + (1 * P.Λ.nz + l))),
      fun j hj l hl => ⟨?_, ?_, ?_⟩⟩, fun hb j hj l hl => ?_⟩, ?_⟩
    · rw [(P.coef1 hs u hk hj).1 hl (by omega), if_neg (by omega), if_pos rfl, zero_add,
        P.ringR_eq hs hx _ hj]
    · rw [(P.coef1 hs u hk hj).2.1 hl (by omega), if_neg (by omega), if_neg (by omega), zero_add]
    · rw [(P.coef1 hs u hk hj).2.1 hl (by omega), if_pos rfl, if_neg (by omega), add_zero,
        P.ringT_eq hs hx _ hj]
    · have : P.o = 1 := by simp [o, hb]
      rw [(P.coef1 hs u hk hj).2.1 hl (by omega), if_neg (by omega), if_neg (by omega), zero_add]
    · exact P.polar0_congr hs (fun i hi j hj l hl => (P.coef1 hs u hk hj).2.2 hl hi) (P.discVal_polar0 hs hx _ _)
  · rw [if_neg (by omega), if_neg (by omega), if_pos hk]
    refine ⟨⟨⟨fun l => -(ext0 u (0 * P.Λ.nz + l) + ext0 u (1 * P.Λ.nz + l)) / 6,
      fun l => √3 / 6 * (ext0 u (0 * P.Λ.nz + l) - ext0 u (1 * P.Λ.nz + l)),
      fun j hj l hl => ⟨?_, ?_, ?_⟩⟩, fun hb j hj l hl => ?_⟩, fun j hj l hl => ?_⟩
    · rw [(P.coef2 hs u hk hj hl).1 (by omega), if_neg (by omega), if_neg (by omega), zero_add]
    · rw [(P.coef2 hs u hk hj hl).1 (by omega), if_pos rfl, if_neg (by omega), add_zero,
        P.ringT_eq hs hx _ hj]
    · rw [(P.coef2 hs u hk hj hl).2.1 (by omega), if_neg (by decide : ¬ 1 ≤ 0), if_pos rfl, add_zero,
        P.ringR_eq hs hx _ hj]
    · have : P.o = 1 := by simp [o, hb]
      rw [(P.coef2 hs u hk hj hl).1 (by omega), if_neg (by omega), if_neg (by omega), zero_add]
    · rw [(P.coef2 hs u hk hj hl).2.2 (by omega), if_neg (by omega)]
  · rw [if_neg (by omega), if_neg (by omega), if_neg (by omega), if_pos hk]
    intro j hj l hl
    rw [P.coef3 hs u hk (by omega) hj hl, if_neg (by omega)]
  · rw [if_neg (by omega), if_neg (by omega), if_neg (by omega), if_neg (by omega)]
    intro c hc
    exact P.polar0_congr hs (fun i hi j hj l hl => P.coefv hs hk u hc hi hj hl) (P.discVal_polar0 hs hx _ _)

omit hx in
theorem cases_inRange {c i j l : Nat} (h : P.Λ.InRange c i j l) : j < P.Λ.nt ∧
    ((P.Λ.k = 0 ∧ c = 0 ∧ i < P.Λ.nr ∧ l < P.Λ.nz) ∨
      (P.Λ.k = 1 ∧ (c = 0 ∧ i < P.Λ.dr ∧ l < P.Λ.nz ∨ c = 1 ∧ i < P.Λ.nr ∧ l < P.Λ.nz
        ∨ c = 2 ∧ i < P.Λ.nr ∧ l < P.Λ.dz)) ∨
      (P.Λ.k = 2 ∧ (c = 0 ∧ i < P.Λ.nr ∧ l < P.Λ.nz ∨ c = 1 ∧ i < P.Λ.dr ∧ l < P.Λ.nz
        ∨ c = 2 ∧ i < P.Λ.dr ∧ l < P.Λ.nz)) ∨
      (P.Λ.k = 3 ∧ c = 0 ∧ i < P.Λ.dr ∧ l < P.Λ.nz) ∨ (P.Λ.k = -1 ∧ c < 3 ∧ i < P.Λ.nr ∧ l < P.Λ.nz)) := by
  obtain ⟨hc, hi, hj, hl⟩ := (P.inRange_iff hs).mp h
  have hz := hs.dz
  refine ⟨hj, ?_⟩
  rcases hs.k with hk | hk | hk | hk | hk <;> simp only [Dims.shape, hk] at hc <;> simp at hc <;>
    (try subst hc) <;> (try interval_cases c) <;> simp [hk] at hz <;> (try rw [← hz]) <;>
    simp [Dims.cshape, Dims.shape, hk] at hi hl ⊢ <;>
    first | exact ⟨hi, hl⟩ | exact ⟨hi, by omega⟩

theorem range_sup {v : Fin P.Λ.n → ℝ} (hv : PolarForm P.Λ.k P.Λ.nr P.Λ.nt P.Λ.nz P.Λ.dz P.zeroBc (coef P.Λ v)) :
    ∃ u, P.matrixᵀ *ᵥ u = v := by
  have hnr := hs.nr
  have hdr := hs.dr
  have ho := P.o_le
  have hdir : ∀ {F : Nat → ℝ}, ¬ P.zeroBc = true → P.o = 0 := fun h => by simp [o, h]
  unfold PolarForm at hv
  rcases id hs.k with hk | hk | hk | hk | hk
  · rw [if_pos hk] at hv
    obtain ⟨U, hU⟩ := P.discVal_inv hs hx hv
    refine ⟨fun r => U r, ext_coef hs.k fun c i j l h => ?_⟩
    obtain ⟨hj, hcs⟩ := P.cases_inRange hs h
    obtain ⟨rfl, hi, hl⟩ : c = 0 ∧ i < P.Λ.nr ∧ l < P.Λ.nz := by omega
    rw [P.coef0 hs _ hk hi hj hl]
    refine hU _ (fun m hm => ext0_of _ _ ?_) i hi j hj l hl
    simpa [n, n1, n2, n3, hk] using hm
  · rw [if_neg (by omega), if_pos hk] at hv
    obtain ⟨⟨⟨b, c', h0⟩, hd⟩, h2⟩ := hv
    obtain ⟨U, hU⟩ := P.discVal_inv hs hx h2
    have e1 : P.n1 = (P.Λ.dr - 1) * P.Λ.nt * P.Λ.nz := by simp [n1, hk]
    have e2 : P.n2 = 2 * P.Λ.nz + (P.Λ.nr - 2 - P.o) * P.Λ.nt * P.Λ.nz := by
      simp [n2, hk, hs.dt, ringSize_eq]
    have e3 : P.n3 = P.discSize P.Λ.nt P.Λ.dz := by simp [n3, hk]
    have en : P.n = P.n1 + P.n2 + P.n3 := rfl
    let A := enc P.Λ.nt P.Λ.nz (fun i j l => coef P.Λ v 0 (i + 1) j l)
    let B := encW 2 P.Λ.nt P.Λ.nz (ringW b c') (fun i j l => coef P.Λ v 1 (i + 2) j l)
    let F : Nat → ℝ := fun r => if r < P.n1 then A r else if r < P.n1 + P.n2 then B (r - P.n1) else U (r - (P.n1 + P.n2))
    have F0 : ∀ m < P.n1, ext0 (fun r : Fin P.n => F r) m = A m := fun m hm => by
      rw [ext0_of _ _ (by omega)]; simp only [F]; rw [if_pos hm]
    have F1 : ∀ m < P.n2, ext0 (fun r : Fin P.n => F r) (P.n1 + m) = B m := fun m hm => by
      rw [ext0_of _ _ (by omega)]; simp only [F]; rw [if_neg (by omega), if_pos (by omega), Nat.add_sub_cancel_left]
    have F2 : ∀ m < P.n3, ext0 (fun r : Fin P.n => F r) (P.n1 + P.n2 + m) = U m := fun m hm => by
      rw [ext0_of _ _ (by omega)]; simp only [F]
      rw [if_neg (by omega), if_neg (by omega), Nat.add_sub_cancel_left]
    have Bw : ∀ p < 2, ∀ l < P.Λ.nz, ext0 (fun r : Fin P.n => F r) (P.n1 + (p * P.Λ.nz + l)) = ringW b c' p l := by
      intro p hp l hl
      rw [F1]; exact encW_w hp hl _ _
      have : p * P.Λ.nz ≤ 1 * P.Λ.nz := Nat.mul_le_mul_right _ (by omega)
      omega
    refine ⟨fun r => F r, ext_coef hs.k fun c i j l h => ?_⟩
    obtain ⟨hj, hcs⟩ := P.cases_inRange hs h
    have hcc : (c = 0 ∧ i < P.Λ.dr ∧ l < P.Λ.nz ∨ c = 1 ∧ i < P.Λ.nr ∧ l < P.Λ.nz ∨ c = 2 ∧ i < P.Λ.nr ∧ l < P.Λ.dz) := by omega
    have hq := h0 j hj l
    obtain ⟨wb, wc⟩ := ringW_b b c' l
    rcases hcc with ⟨rfl, hi, hl⟩ | ⟨rfl, hi, hl⟩ | ⟨rfl, hi, hl⟩
    · obtain ⟨q0, q1, q2⟩ := hq hl
      rw [(P.coef1 hs _ hk hj).1 hl hi]
      rcases (show i = 0 ∨ 1 ≤ i by omega) with rfl | hi0
      · rw [if_neg (by omega), if_pos rfl, zero_add, P.ringR_eq hs hx _ hj, Bw 0 (by omega) l hl,
          Bw 1 (by omega) l hl, wb, wc, q0]
      · rw [if_pos hi0, if_neg (by omega), add_zero, F0]; refine (enc_flat hj hl _).trans ?_; simp only [Nat.sub_add_cancel hi0]
        have := flat_lt (show i - 1 < P.Λ.dr - 1 by omega) hj hl
        omega
    · obtain ⟨q0, q1, q2⟩ := hq hl
      rw [(P.coef1 hs _ hk hj).2.1 hl hi]
      rcases (show i = 0 ∨ i = 1 ∨ 2 ≤ i by omega) with rfl | rfl | h2
      · rw [if_neg (by omega), if_neg (by omega), q1, zero_add]
      · rw [if_pos rfl, if_neg (by omega), add_zero, P.ringT_eq hs hx _ hj, Bw 0 (by omega) l hl,
          Bw 1 (by omega) l hl, wb, wc, q2]
      · rw [if_neg (by omega), zero_add]
        by_cases h3 : i < P.Λ.nr - P.o
        · rw [if_pos ⟨h2, h3⟩, F1]; refine (encW_C hj hl _ _).trans ?_; simp only [Nat.sub_add_cancel h2]
          have := flat_lt (show i - 2 < P.Λ.nr - 2 - P.o by omega) hj hl
          omega
        · rw [if_neg (by omega)]
          by_cases hb : P.zeroBc = true
          · have : P.o = 1 := by simp [o, hb]
            rw [show i = P.Λ.nr - 1 by omega, hd hb j hj l hl]
          · have := hdir (F := F) hb; omega
    · rw [(P.coef1 hs _ hk hj).2.2 hl hi]
      exact hU _ (fun m hm => F2 m (by omega)) i hi j hj l hl
  · have hdz : P.Λ.dz = P.Λ.nz := by have := hs.dz; omega
    rw [if_neg (by omega), if_neg (by omega), if_pos hk] at hv
    obtain ⟨⟨⟨b, c', h0⟩, hd⟩, h2⟩ := hv
    have e1 : P.n1 = 2 * P.Λ.nz + (P.Λ.nr - 2 - P.o) * P.Λ.nt * P.Λ.nz := by
      simp [n1, hk, hs.dt, hdz, ringSize_eq]
    have e2 : P.n2 = (P.Λ.dr - 1) * P.Λ.nt * P.Λ.nz := by simp [n2, hk, hdz]
    have e3 : P.n3 = (P.Λ.dr - 1) * P.Λ.nt * P.Λ.nz := by simp [n3, hk, hs.dt]
    have en : P.n = P.n1 + P.n2 + P.n3 := rfl
    let A := encW 2 P.Λ.nt P.Λ.nz (ringW b c') (fun i j l => coef P.Λ v 0 (i + 2) j l)
    let B := enc P.Λ.nt P.Λ.nz (fun i j l => coef P.Λ v 1 (i + 1) j l)
    let U := enc P.Λ.nt P.Λ.nz (fun i j l => coef P.Λ v 2 (i + 1) j l)
    let F : Nat → ℝ := fun r => if r < P.n1 then A r else if r < P.n1 + P.n2 then B (r - P.n1) else U (r - (P.n1 + P.n2))
    have F0 : ∀ m < P.n1, ext0 (fun r : Fin P.n => F r) m = A m := fun m hm => by
      rw [ext0_of _ _ (by omega)]; simp only [F]; rw [if_pos hm]
    have F1 : ∀ m < P.n2, ext0 (fun r : Fin P.n => F r) (P.n1 + m) = B m := fun m hm => by
      rw [ext0_of _ _ (by omega)]; simp only [F]; rw [if_neg (by omega), if_pos (by omega), Nat.add_sub_cancel_left]
    have F2 : ∀ m < P.n3, ext0 (fun r : Fin P.n => F r) (P.n1 + P.n2 + m) = U m := fun m hm => by
      rw [ext0_of _ _ (by omega)]; simp only [F]
      rw [if_neg (by omega), if_neg (by omega), Nat.add_sub_cancel_left]
    have Bw : ∀ p < 2, ∀ l < P.Λ.nz, ext0 (fun r : Fin P.n => F r) (p * P.Λ.nz + l) = ringW b c' p l := by
      intro p hp l hl
      rw [F0]; exact encW_w hp hl _ _
      have : p * P.Λ.nz ≤ 1 * P.Λ.nz := Nat.mul_le_mul_right _ (by omega)
      omega
    refine ⟨fun r => F r, ext_coef hs.k fun c i j l h => ?_⟩
    obtain ⟨hj, hcs⟩ := P.cases_inRange hs h
    have hcc : (c = 0 ∧ i < P.Λ.nr ∧ l < P.Λ.nz ∨ c = 1 ∧ i < P.Λ.dr ∧ l < P.Λ.nz ∨ c = 2 ∧ i < P.Λ.dr ∧ l < P.Λ.nz) := by omega
    have hq := h0 j hj l
    obtain ⟨wb, wc⟩ := ringW_b b c' l
    rcases hcc with ⟨rfl, hi, hl⟩ | ⟨rfl, hi, hl⟩ | ⟨rfl, hi, hl⟩
    · obtain ⟨q0, q1, q2⟩ := hq hl
      rw [(P.coef2 hs _ hk hj hl).1 hi]
      rcases (show i = 0 ∨ i = 1 ∨ 2 ≤ i by omega) with rfl | rfl | h2
      · rw [if_neg (by omega), if_neg (by omega), q0, zero_add]
      · rw [if_pos rfl, if_neg (by omega), add_zero, P.ringT_eq hs hx _ hj, Bw 0 (by omega) l hl,
          Bw 1 (by omega) l hl, wb, wc, q1]
      · rw [if_neg (by omega), zero_add]
        by_cases h3 : i < P.Λ.nr - P.o
        · rw [if_pos ⟨h2, h3⟩, F0]; refine (encW_C hj hl _ _).trans ?_; simp only [Nat.sub_add_cancel h2]
          have := flat_lt (show i - 2 < P.Λ.nr - 2 - P.o by omega) hj hl
          omega
        · rw [if_neg (by omega)]
          by_cases hb : P.zeroBc = true
          · have : P.o = 1 := by simp [o, hb]
            rw [show i = P.Λ.nr - 1 by omega, hd hb j hj l hl]
          · have := hdir (F := F) hb; omega
    · obtain ⟨q0, q1, q2⟩ := hq hl
      rw [(P.coef2 hs _ hk hj hl).2.1 hi]
      rcases (show i = 0 ∨ 1 ≤ i by omega) with rfl | hi0
      · rw [if_neg (by decide : ¬ 1 ≤ 0), if_pos rfl, add_zero, P.ringR_eq hs hx _ hj, Bw 0 (by omega) l hl,
          Bw 1 (by omega) l hl, wb, wc, q2]
      · rw [if_pos hi0, if_neg (by omega), neg_zero, zero_add, F1]; refine (enc_flat hj hl _).trans ?_; simp only [Nat.sub_add_cancel hi0]
        have := flat_lt (show i - 1 < P.Λ.dr - 1 by omega) hj hl
        omega
    · rw [(P.coef2 hs _ hk hj hl).2.2 hi]
      rcases (show i = 0 ∨ 1 ≤ i by omega) with rfl | hi0
      · rw [if_neg (by omega), h2 j hj l hl]
      · rw [if_pos hi0, F2]; refine (enc_flat hj hl _).trans ?_; simp only [Nat.sub_add_cancel hi0]
        have := flat_lt (show i - 1 < P.Λ.dr - 1 by omega) hj hl
        omega
  · have hdz : P.Λ.dz = P.Λ.nz := by have := hs.dz; omega
    rw [if_neg (by omega), if_neg (by omega), if_neg (by omega), if_pos hk] at hv
    refine ⟨fun r => enc P.Λ.nt P.Λ.nz (fun i j l => coef P.Λ v 0 (i + 1) j l) r, ext_coef hs.k fun c i j l h => ?_⟩
    obtain ⟨hj, hcs⟩ := P.cases_inRange hs h
    obtain ⟨rfl, hi, hl⟩ : c = 0 ∧ i < P.Λ.dr ∧ l < P.Λ.nz := by omega
    rw [P.coef3 hs _ hk hi hj hl]
    rcases (show i = 0 ∨ 1 ≤ i by omega) with rfl | hi0
    · rw [if_neg (by omega), hv j hj l hl]
    · rw [if_pos hi0, ext0_of, enc_flat hj hl, Nat.sub_add_cancel hi0]
      have := flat_lt (show i - 1 < P.Λ.dr - 1 by omega) hj hl
      simpa [n, n1, n2, n3, hk, hs.dt, hdz] using this
  · rw [if_neg (by omega), if_neg (by omega), if_neg (by omega), if_neg (by omega)] at hv
    obtain ⟨U0, hU0⟩ := P.discVal_inv hs hx (hv 0 (by omega))
    obtain ⟨U1, hU1⟩ := P.discVal_inv hs hx (hv 1 (by omega))
    obtain ⟨U2, hU2⟩ := P.discVal_inv hs hx (hv 2 (by omega))
    have en : P.n = P.discSize P.Λ.nt P.Λ.nz + P.discSize P.Λ.nt P.Λ.nz + P.discSize P.Λ.nt P.Λ.nz := by
      simp [n, n1, n2, n3, hk]
    generalize hD : P.discSize P.Λ.nt P.Λ.nz = D at *
    let F : Nat → ℝ := fun r => if r < D then U0 r else if r < D + D then U1 (r - D) else U2 (r - (D + D))
    refine ⟨fun r => F r, ext_coef hs.k fun c i j l h => ?_⟩
    obtain ⟨hj, hcs⟩ := P.cases_inRange hs h
    obtain ⟨hc, hi, hl⟩ : c < 3 ∧ i < P.Λ.nr ∧ l < P.Λ.nz := by omega
    rw [P.coefv hs hk _ hc hi hj hl, hD]
    interval_cases c
    · refine hU0 _ (fun m hm => ?_) i hi j hj l hl
      rw [ext0_of _ _ (by omega)]; simp only [F]; rw [if_pos (by omega)]; simp
    · refine hU1 _ (fun m hm => ?_) i hi j hj l hl
      rw [ext0_of _ _ (by omega)]; simp only [F]; rw [if_neg (by omega), if_pos (by omega)]
      congr 1; omega
    · refine hU2 _ (fun m hm => ?_) i hi j hj l hl
      rw [ext0_of _ _ (by omega)]; simp only [F]; rw [if_neg (by omega), if_neg (by omega)]
      congr 1; omega

end PolarOp
end Mrx
