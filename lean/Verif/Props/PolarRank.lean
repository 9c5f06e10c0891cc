import Verif.Props.Incidence

/-! # C29: the polar extraction operators have as many independent rows as they claim -/

set_option linter.unusedSectionVars false

namespace Mrx.Props
open Finset Mrx Spec Matrix Jax

theorem sin_ang_one {nt : Nat} (h : 3 ≤ nt) : Real.sin (ang nt 1) ≠ 0 := by
  apply ne_of_gt
  have hn : (3:ℝ) ≤ nt := by exact_mod_cast h
  have hp := Real.pi_pos
  apply Real.sin_pos_of_pos_of_lt_pi
  · unfold ang; positivity
  · unfold ang
    rw [div_lt_iff₀ (by linarith)]
    push_cast; nlinarith

theorem ang_zero (nt : Nat) : ang nt 0 = 0 := by simp [ang]

section
variable (P : PolarOp) (hs : P.Std) (hx : P.ξ = getXi P.Λ.nt) (hnt : 3 ≤ P.Λ.nt)
include hs hx hnt

theorem disc_inj {z : Nat} {U : Nat → ℝ} (h : ∀ i < P.Λ.nr, ∀ j < P.Λ.nt, ∀ l < z, P.discVal U P.Λ.nt z i j l = 0) :
    ∀ m < P.discSize P.Λ.nt z, U m = 0 := by
  have hnr := hs.nr
  have ho := P.o_le
  intro m hm
  rw [P.discSize_eq] at hm
  by_cases h3 : m < 3 * z
  · have hz : 0 < z := by omega
    have hl := Nat.mod_lt m hz
    have hp : m / z < 3 := by rw [Nat.div_lt_iff_lt_mul hz]; omega
    have e : m = m / z * z + m % z := by rw [Nat.mul_comm]; exact (Nat.div_add_mod m z).symm
    have a0 := h 0 (by omega) 0 (by omega) _ hl
    have a1 := h 1 (by omega) 0 (by omega) _ hl
    have a2 := h 1 (by omega) 1 (by omega) _ hl
    obtain ⟨x0, x1, x2⟩ := xi1 (show 0 < P.Λ.nt by omega)
    obtain ⟨y0, y1, y2⟩ := xi1 (show 1 < P.Λ.nt by omega)
    simp only [PolarOp.discVal, hx, sum_range_succ, range_zero, sum_empty, xi0 (show 0 < P.Λ.nt by omega)] at a0
    simp only [PolarOp.discVal, hx, sum_range_succ, range_zero, sum_empty, x0, x1, x2, ang_zero, Real.cos_zero,
      Real.sin_zero] at a1
    simp only [PolarOp.discVal, hx, sum_range_succ, range_zero, sum_empty, y0, y1, y2] at a2
    simp at a0 a1 a2
    have hsn := sin_ang_one hnt
    have h3' : √3 ≠ 0 := by positivity
    have fin : ∀ A B C : ℝ, U (m % z) = A → U (z + m % z) = B → U (2 * z + m % z) = C → A = 0 → B = 0 → C = 0 →
        U m = 0 := by
      intro A B C qa qb qc za zb zc
      rcases (fun p (hp : p < 3) => (by omega : p = 0 ∨ p = 1 ∨ p = 2)) _ hp with q | q | q <;> rw [q] at e <;> rw [e]
      · rw [Nat.zero_mul, Nat.zero_add, qa, za]
      · rw [Nat.one_mul, qb, zb]
      · rw [qc, zc]
    generalize hqa : U (m % z) = A at *
    generalize hqb : U (z + m % z) = B at *
    generalize hqc : U (2 * z + m % z) = C at *
    have hA : A = 0 := by linarith
    have hBC : B + C = 0 := by linarith
    have hB' : √3 * Real.sin (ang P.Λ.nt 1) * (B - C) = 0 := by
      subst hA
      have : C = -B := by linarith
      subst this
      nlinarith [a2]
    have hBC' : B - C = 0 := by
      rcases mul_eq_zero.mp hB' with h | h
      · exact absurd h (mul_ne_zero h3' hsn)
      · exact h
    exact fin A B C rfl rfl rfl hA (by linarith) (by linarith)
  · obtain ⟨q, hq⟩ : ∃ q, m = 3 * z + q := ⟨m - 3 * z, by omega⟩
    subst hq
    obtain ⟨b1, b2, b3, b4⟩ := unravelIndex3_spec (show q < (P.Λ.nr - 2 - P.o) * P.Λ.nt * z by omega)
    have := h ((unravelIndex3 q (P.Λ.nr - 2 - P.o) P.Λ.nt z).1 + 2) (by omega) _ b2 _ b3
    unfold PolarOp.discVal at this
    rw [if_neg (by omega), if_pos ⟨by omega, by omega⟩, zero_add, Nat.add_sub_cancel, b4] at this
    exact this

theorem ring_inj {U : Nat → ℝ} (h : ∀ j < P.Λ.nt, ∀ l < P.Λ.nz, P.ringR U P.Λ.nz j l = 0) :
    ∀ m < 2 * P.Λ.nz, U m = 0 := by
  intro m hm
  have hz : 0 < P.Λ.nz := by omega
  have hl := Nat.mod_lt m hz
  have hp : m / P.Λ.nz < 2 := by rw [Nat.div_lt_iff_lt_mul hz]; omega
  have e : m = m / P.Λ.nz * P.Λ.nz + m % P.Λ.nz := by rw [Nat.mul_comm]; exact (Nat.div_add_mod m _).symm
  have a1 := h 0 (by omega) _ hl
  have a2 := h 1 (by omega) _ hl
  rw [P.ringR_eq hs hx _ (by omega)] at a1 a2
  rw [ang_zero, Real.cos_zero, Real.sin_zero] at a1
  have hsn := sin_ang_one hnt
  have h3' : √3 ≠ 0 := by positivity
  have b : U (0 * P.Λ.nz + m % P.Λ.nz) + U (1 * P.Λ.nz + m % P.Λ.nz) = 0 := by linarith
  have c : √3 * Real.sin (ang P.Λ.nt 1) * (U (0 * P.Λ.nz + m % P.Λ.nz) - U (1 * P.Λ.nz + m % P.Λ.nz)) = 0 := by
    rw [b] at a2; linarith
  have c' := (mul_eq_zero.mp c).resolve_left (mul_ne_zero h3' hsn)
  have z0 : U (0 * P.Λ.nz + m % P.Λ.nz) = 0 := by linarith
  have z1 : U (1 * P.Λ.nz + m % P.Λ.nz) = 0 := by linarith
  rcases (fun p (hp : p < 2) => (by omega : p = 0 ∨ p = 1)) _ hp with q | q <;> rw [q] at e <;> rw [e] <;> assumption

theorem polar_rows_independent (u : Fin P.n → ℝ) (hu : P.matrixᵀ *ᵥ u = 0) : u = 0 := by
  have hnr := hs.nr
  have hdr := hs.dr
  have ho := P.o_le
  have hc0 : ∀ c i j l, coef P.Λ (P.matrixᵀ *ᵥ u) c i j l = 0 := by
    intro c i j l; rw [hu]; unfold coef; split <;> rfl
  suffices ∀ m < P.n, ext0 u m = 0 by
    funext r
    have := this r r.2
    unfold ext0 at this
    rwa [dif_pos r.2] at this
  have three : ∀ (U : Nat → ℝ), (∀ i < P.Λ.dr, ∀ j < P.Λ.nt, ∀ l < P.Λ.nz, 1 ≤ i →
      U (((i - 1) * P.Λ.nt + j) * P.Λ.nz + l) = 0) → ∀ m < (P.Λ.dr - 1) * P.Λ.nt * P.Λ.nz, U m = 0 := by
    intro U h m hm
    obtain ⟨b1, b2, b3, b4⟩ := unravelIndex3_spec hm
    have := h ((unravelIndex3 m (P.Λ.dr - 1) P.Λ.nt P.Λ.nz).1 + 1) (by omega) _ b2 _ b3 (by omega)
    rwa [Nat.add_sub_cancel, b4] at this
  have outer : ∀ (U : Nat → ℝ), (∀ i < P.Λ.nr, ∀ j < P.Λ.nt, ∀ l < P.Λ.nz, 2 ≤ i → i < P.Λ.nr - P.o →
      U (2 * P.Λ.nz + (((i - 2) * P.Λ.nt + j) * P.Λ.nz + l)) = 0) →
      ∀ m, m < 2 * P.Λ.nz + (P.Λ.nr - 2 - P.o) * P.Λ.nt * P.Λ.nz → 2 * P.Λ.nz ≤ m → U m = 0 := by
    intro U h m hm hm2
    obtain ⟨q, rfl⟩ : ∃ q, m = 2 * P.Λ.nz + q := ⟨m - 2 * P.Λ.nz, by omega⟩
    obtain ⟨b1, b2, b3, b4⟩ := unravelIndex3_spec (show q < (P.Λ.nr - 2 - P.o) * P.Λ.nt * P.Λ.nz by omega)
    have := h ((unravelIndex3 q (P.Λ.nr - 2 - P.o) P.Λ.nt P.Λ.nz).1 + 2) (by omega) _ b2 _ b3 (by omega) (by omega)
    rwa [Nat.add_sub_cancel, b4] at this
  intro m hm
  rcases id hs.k with hk | hk | hk | hk | hk
  · apply disc_inj P hs hx hnt (U := ext0 u) (z := P.Λ.nz)
    · intro i hi j hj l hl
      rw [← P.coef0 hs u hk hi hj hl]; exact hc0 _ _ _ _
    · simpa [PolarOp.n, PolarOp.n1, PolarOp.n2, PolarOp.n3, hk] using hm
  · have e1 : P.n1 = (P.Λ.dr - 1) * P.Λ.nt * P.Λ.nz := by simp [PolarOp.n1, hk]
    have e2 : P.n2 = 2 * P.Λ.nz + (P.Λ.nr - 2 - P.o) * P.Λ.nt * P.Λ.nz := by
      simp [PolarOp.n2, hk, hs.dt, PolarOp.ringSize_eq]
    have e3 : P.n3 = P.discSize P.Λ.nt P.Λ.dz := by simp [PolarOp.n3, hk]
    have en : P.n = P.n1 + P.n2 + P.n3 := rfl
    by_cases h1 : m < P.n1
    · refine three _ (fun i hi j hj l hl h1i => ?_) m (by omega)
      have := (P.coef1 hs u hk hj).1 hl hi
      rw [hc0, if_pos h1i, if_neg (by omega), add_zero] at this
      exact this.symm
    · by_cases h2 : m < P.n1 + P.n2
      · obtain ⟨q, rfl⟩ : ∃ q, m = P.n1 + q := ⟨m - P.n1, by omega⟩
        by_cases h3 : q < 2 * P.Λ.nz
        · refine ring_inj P hs hx hnt (U := fun m => ext0 u (P.n1 + m)) (fun j hj l hl => ?_) q h3
          have := (P.coef1 hs u hk hj (i := 0)).1 hl (by omega)
          rw [hc0, if_neg (by omega), if_pos rfl, zero_add] at this
          exact this.symm
        · refine outer (fun m => ext0 u (P.n1 + m)) (fun i hi j hj l hl h2i h3i => ?_) q (by omega) (by omega)
          have := (P.coef1 hs u hk hj).2.1 hl hi
          rw [hc0, if_neg (by omega), if_pos ⟨h2i, h3i⟩, zero_add] at this
          exact this.symm
      · obtain ⟨q, rfl⟩ : ∃ q, m = P.n1 + P.n2 + q := ⟨m - (P.n1 + P.n2), by omega⟩
        apply disc_inj P hs hx hnt (U := fun m => ext0 u (P.n1 + P.n2 + m)) (z := P.Λ.dz)
        · intro i hi j hj l hl
          rw [← (P.coef1 hs u hk hj).2.2 hl hi]; exact hc0 _ _ _ _
        · omega
  · have hdz : P.Λ.dz = P.Λ.nz := by have := hs.dz; omega
    have e1 : P.n1 = 2 * P.Λ.nz + (P.Λ.nr - 2 - P.o) * P.Λ.nt * P.Λ.nz := by
      simp [PolarOp.n1, hk, hs.dt, hdz, PolarOp.ringSize_eq]
    have e2 : P.n2 = (P.Λ.dr - 1) * P.Λ.nt * P.Λ.nz := by simp [PolarOp.n2, hk, hdz]
    have e3 : P.n3 = (P.Λ.dr - 1) * P.Λ.nt * P.Λ.nz := by simp [PolarOp.n3, hk, hs.dt]
    have en : P.n = P.n1 + P.n2 + P.n3 := rfl
    by_cases h1 : m < P.n1
    · by_cases h3 : m < 2 * P.Λ.nz
      · refine ring_inj P hs hx hnt (U := ext0 u) (fun j hj l hl => ?_) m h3
        have := (P.coef2 hs u hk hj hl (i := 0)).2.1 (by omega)
        rw [hc0, if_neg (by decide : ¬ 1 ≤ 0), if_pos rfl, add_zero] at this
        linarith
      · refine outer (ext0 u) (fun i hi j hj l hl h2i h3i => ?_) m (by omega) (by omega)
        have := (P.coef2 hs u hk hj hl).1 hi
        rw [hc0, if_neg (by omega), if_pos ⟨h2i, h3i⟩, zero_add] at this
        exact this.symm
    · by_cases h2 : m < P.n1 + P.n2
      · obtain ⟨q, rfl⟩ : ∃ q, m = P.n1 + q := ⟨m - P.n1, by omega⟩
        refine three (fun m => ext0 u (P.n1 + m)) (fun i hi j hj l hl h1i => ?_) q (by omega)
        have := (P.coef2 hs u hk hj hl).2.1 hi
        rw [hc0, if_pos h1i, if_neg (by omega), neg_zero, zero_add] at this
        exact this.symm
      · obtain ⟨q, rfl⟩ : ∃ q, m = P.n1 + P.n2 + q := ⟨m - (P.n1 + P.n2), by omega⟩
        refine three (fun m => ext0 u (P.n1 + P.n2 + m)) (fun i hi j hj l hl h1i => ?_) q (by omega)
        have := (P.coef2 hs u hk hj hl).2.2 hi
        rw [hc0, if_pos h1i] at this
        exact this.symm
  · have hdz : P.Λ.dz = P.Λ.nz := by have := hs.dz; omega
    have en : P.n = (P.Λ.dr - 1) * P.Λ.nt * P.Λ.nz := by
      simp [PolarOp.n, PolarOp.n1, PolarOp.n2, PolarOp.n3, hk, hs.dt, hdz]
    refine three _ (fun i hi j hj l hl h1i => ?_) m (by omega)
    have := P.coef3 hs u hk hi hj hl
    rw [hc0, if_pos h1i] at this
    exact this.symm
  · have en : P.n = P.discSize P.Λ.nt P.Λ.nz + P.discSize P.Λ.nt P.Λ.nz + P.discSize P.Λ.nt P.Λ.nz := by
      simp [PolarOp.n, PolarOp.n1, PolarOp.n2, PolarOp.n3, hk]
    have key : ∀ c < 3, ∀ q < P.discSize P.Λ.nt P.Λ.nz, ext0 u (c * P.discSize P.Λ.nt P.Λ.nz + q) = 0 := by
      intro c hc
      apply disc_inj P hs hx hnt (U := fun m => ext0 u (c * P.discSize P.Λ.nt P.Λ.nz + m)) (z := P.Λ.nz)
      intro i hi j hj l hl
      rw [← P.coefv hs hk u hc hi hj hl]; exact hc0 _ _ _ _
    generalize P.discSize P.Λ.nt P.Λ.nz = D at *
    by_cases h1 : m < D
    · have := key 0 (by omega) m h1; rwa [Nat.zero_mul, Nat.zero_add] at this
    · by_cases h2 : m < D + D
      · have := key 1 (by omega) (m - D) (by omega)
        rwa [Nat.one_mul, Nat.add_sub_cancel' (by omega)] at this
      · have := key 2 (by omega) (m - 2 * D) (by omega)
        rwa [Nat.add_sub_cancel' (by omega)] at this

end

/-- **C29** Whenever the axial direction is not clamped (and for 0-, 1-forms and vector fields also when it is), the
rows of the polar extraction operator are linearly independent: every row is a genuine degree of freedom. At least
three poloidal splines are required (with fewer the first ring cannot carry two independent directions).
Missing: 2- and 3-forms with a clamped axial direction, where it is false (see the next two theorems). -/
theorem C29_rows_independent (k : Int) (ns ps : Nat × Nat × Nat) (tz : String) (f : Form ℝ)
    (h : PolarSetting k ns ps tz f) (hnt : 3 ≤ ns.2.1) (dirichlet : Bool) :
    LinearIndependent ℝ (PolarOp.mk f.dims (getXi ns.2.1) dirichlet).matrix.row := by
  obtain ⟨hk, hd, _⟩ := Form.mk?_inv h.hmk
  have ent : f.dims.nt = ns.2.1 := by rw [hd]
  rw [← Matrix.vecMul_injective_iff]
  intro u u' huu
  have : u - u' = 0 := by
    apply polar_rows_independent _ (h.std dirichlet) (by rw [ent]) (by show 3 ≤ f.dims.nt; omega)
    rw [mulVec_transpose, Matrix.sub_vecMul]
    exact sub_eq_zero.mpr huu
  exact sub_eq_zero.mp this

/-- Case: 3-forms on 4 × 5 × 3 splines. -/
example (dirichlet : Bool) := C29_rows_independent 3 (4, 5, 3) (2, 2, 1) "periodic" _
  ⟨rfl, by norm_num, Or.inr (Or.inr (Or.inr (by decide)))⟩ (by norm_num) dirichlet

/-- **C29** negation, 3-forms: with a clamped axial direction the last row of the operator is zero, for all sizes. -/
theorem C29_threeform_clamped_zero_row (nr nt nz : Nat) (hnr : 3 ≤ nr) (hnt : 1 ≤ nt) (hnz : 2 ≤ nz) (ξ : Xi)
    (dirichlet : Bool) : ∃ r, ∀ c, (PolarOp.mk ⟨3, nr, nt, nz, nr - 1, nt, nz - 1⟩ ξ dirichlet).matrix r c = 0 := by
  obtain ⟨a, rfl⟩ : ∃ a, nr = a + 3 := ⟨nr - 3, by omega⟩
  obtain ⟨b, rfl⟩ : ∃ b, nz = b + 2 := ⟨nz - 2, by omega⟩
  set P := PolarOp.mk ⟨3, a + 3, nt, b + 2, a + 3 - 1, nt, b + 2 - 1⟩ ξ dirichlet with hP
  have en : P.n = (a + 1) * nt * (b + 1) := by simp [PolarOp.n, PolarOp.n1, PolarOp.n2, PolarOp.n3, hP]
  have hpos : 0 < (a + 1) * nt * (b + 1) := by
    apply Nat.mul_pos (Nat.mul_pos _ _) <;> omega
  refine ⟨⟨P.n - 1, by omega⟩, fun c => ?_⟩
  have hc := c.2
  have ec : P.Λ.n = (a + 2) * nt * (b + 1) := by simp [Dims.n, Dims.n1, Dims.n2, Dims.n3, hP]
  have hrow : P.n - 1 < (a + 1) * nt * (b + 2) := by
    have : (a + 1) * nt * (b + 1) ≤ (a + 1) * nt * (b + 2) := Nat.mul_le_mul_left _ (by omega)
    omega
  obtain ⟨q1, q2, q3, q4⟩ := unravelIndex3_spec hrow
  have hu := unravelIndex3_flat (show (unravelIndex3 (P.n - 1) (a + 1) nt (b + 2)).1 < a + 3 by omega) q2 q3
  rw [q4] at hu
  show P.element (P.n - 1) c = 0
  have hel : P.element (P.n - 1) c = PolarOp.threeform (P.n - 1) c (a + 3) nt (b + 2) := by
    simp [PolarOp.element, hP]
  rw [hel]
  unfold PolarOp.threeform
  simp only [hu]
  rw [if_neg]
  rw [ravelMultiIndex3_eq (by omega) q2 q3]
  intro hcc
  have e2 : (a + 2) * nt * (b + 1) = (a + 1) * nt * (b + 1) + nt * (b + 1) := by ring
  have e3 : nt * (b + 2) = nt * (b + 1) + nt := by ring
  generalize unravelIndex3 (P.n - 1) (a + 1) nt (b + 2) = w at *
  have e4 : ((w.1 + 1) * nt + w.2.1) * (b + 2) + w.2.2 = (w.1 * nt + w.2.1) * (b + 2) + w.2.2 + nt * (b + 2) := by ring
  omega

/-- Case: 4 × 5 × 3 splines. -/
example := C29_threeform_clamped_zero_row 4 5 3 (by norm_num) (by norm_num) (by norm_num)

/-- **C29** negation, 2-forms: with a clamped axial direction two different rows of the operator coincide. -/
theorem C29_twoform_clamped_duplicate_rows (nr nt nz : Nat) (hnr : 4 ≤ nr) (hnt : 1 ≤ nt) (hnz : 2 ≤ nz) (ξ : Xi)
    (dirichlet : Bool) : ∃ r r', r ≠ r' ∧ ∀ c,
      (PolarOp.mk ⟨2, nr, nt, nz, nr - 1, nt, nz - 1⟩ ξ dirichlet).matrix r c =
      (PolarOp.mk ⟨2, nr, nt, nz, nr - 1, nt, nz - 1⟩ ξ dirichlet).matrix r' c := by
  set P := PolarOp.mk ⟨2, nr, nt, nz, nr - 1, nt, nz - 1⟩ ξ dirichlet with hP
  have hk : P.Λ.k = 2 := rfl
  have ho := P.o_le
  have e1 : P.n1 = 2 * (nz - 1) + (nr - 2 - P.o) * nt * (nz - 1) := by
    rw [show P.n1 = P.ringSize nt (nz - 1) by simp [PolarOp.n1, hP], P.ringSize_eq]
  have hpos : 0 < (nr - 2 - P.o) * nt * (nz - 1) := by
    apply Nat.mul_pos (Nat.mul_pos _ _) <;> omega
  have en : P.n = P.n1 + P.n2 + P.n3 := rfl
  obtain ⟨b0, _, _⟩ := P.vectorIndex_block (by omega) (by omega)
  refine ⟨⟨2 * (nz - 1) - 1, by omega⟩, ⟨2 * (nz - 1), by omega⟩, by simp [Fin.ext_iff]; omega, fun c => ?_⟩
  show P.element (2 * (nz - 1) - 1) c = P.element (2 * (nz - 1)) c
  have hu : Jax.unravelIndex2 (2 * (nz - 1) - 1) 2 (nz - 1) = Jax.unravelIndex2 (2 * (nz - 1)) 2 (nz - 1) := by
    unfold Jax.unravelIndex2
    rw [Nat.min_eq_left (by omega), Nat.min_eq_right (by omega)]
  have hz : P.Λ.nz = nz := rfl
  have hdz : P.Λ.dz = nz - 1 := rfl
  unfold PolarOp.element
  simp only [hk, b0 (2 * (nz - 1) - 1) (by omega), b0 (2 * (nz - 1)) (by omega), hz, hdz,
    show ¬ ((2 : Int) = 0) by decide, show ¬ ((2 : Int) = 1) by decide, if_false, if_true]
  rw [if_pos (show 2 * (nz - 1) - 1 < 2 * nz by omega), if_pos (show 2 * (nz - 1) < 2 * nz by omega)]
  unfold PolarOp.innerOneformT PolarOp.innerOneformR
  rw [hu]

example : 3 ≤ 4 ∧ ∃ f : Form ℝ, PolarSetting 3 (4, 4, 1) (2, 2, 0) "constant" f := by
  refine ⟨by norm_num, ?_⟩
  have h : ∃ f : Form ℝ, Form.mk? 3 (4, 4, 1) (2, 2, 0) ("clamped", "periodic", "constant") = .ok f := by
    unfold Form.mk?
    simp [mk?_clamped 4 2 (Or.inl (by omega)), mk?_periodic 4 2 (Or.inl (by omega)),
      mk?_deriv_clamped 4 2 (by omega) (by omega), mk?_deriv_periodic 4 2 (by omega) (by omega) (by omega),
      show SplineBasis.mk? (K := ℝ) 1 0 "constant" = .ok ⟨1, 0, "constant", [0, 1]⟩ from rfl,
      show DerivativeSpline.mk? (K := ℝ) ⟨1, 0, "constant", [0, 1]⟩
        = .ok ⟨1, 0, "constant", [0, 1], ⟨1, 0, "constant", [0, 1]⟩⟩ from by simp [DerivativeSpline.mk?, SplineBasis.mk?],
      Dims.validDegree]
  obtain ⟨f, hf⟩ := h
  exact ⟨f, hf, by norm_num, by decide⟩

end Mrx.Props
