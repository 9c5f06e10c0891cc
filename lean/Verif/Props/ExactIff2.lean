import Verif.Proofs.Case
import Verif.Props.ExactIff
import Verif.Props.Constants
import Verif.Props.Lazy
import Verif.Proofs.AllBetti3

/-!
# C76: the exact domain of the discrete gradient, curl and divergence
-/

set_option linter.unusedSectionVars false
set_option linter.unusedVariables false
set_option linter.unusedSimpArgs false

namespace Mrx
open Finset Spec Matrix DeRham Quad Props Jax

namespace Seq
variable {S : Seq ℝ}

/-- The gradients of the basis functions at the quadrature points, in terms of the tables, for all sizes. -/
noncomputable def trueGrad (S : Seq ℝ) (i j k : Nat) : ℝ :=
  let q := S.unravelQuad j
  let a := (S.L0.dims.unravelIndex i).2
  if k = 0 then S.trueDiffR a.1 q.1 * S.lamT.get a.2.1 q.2.1 * S.lamZ.get a.2.2 q.2.2
  else if k = 1 then S.lamR.get a.1 q.1 * S.trueDiffT a.2.1 q.2.1 * S.lamZ.get a.2.2 q.2.2
  else S.lamR.get a.1 q.1 * S.lamT.get a.2.1 q.2.1 * S.trueDiffZ a.2.2 q.2.2

/-- The curls. -/
noncomputable def trueCurl (S : Seq ℝ) (i j k : Nat) : ℝ :=
  let q := S.unravelQuad j
  let c := (S.L1.dims.unravelIndex i).1
  let a := (S.L1.dims.unravelIndex i).2
  let d3dy := S.lamR.get a.1 q.1 * S.trueDiffT a.2.1 q.2.1 * S.dlamZ.get a.2.2 q.2.2
  let d2dz := S.lamR.get a.1 q.1 * S.dlamT.get a.2.1 q.2.1 * S.trueDiffZ a.2.2 q.2.2
  let d1dz := S.dlamR.get a.1 q.1 * S.lamT.get a.2.1 q.2.1 * S.trueDiffZ a.2.2 q.2.2
  let d3dx := S.trueDiffR a.1 q.1 * S.lamT.get a.2.1 q.2.1 * S.dlamZ.get a.2.2 q.2.2
  let d2dx := S.trueDiffR a.1 q.1 * S.dlamT.get a.2.1 q.2.1 * S.lamZ.get a.2.2 q.2.2
  let d1dy := S.dlamR.get a.1 q.1 * S.trueDiffT a.2.1 q.2.1 * S.lamZ.get a.2.2 q.2.2
  if c = 0 then (if k = 0 then 0 else if k = 1 then d1dz else -d1dy)
  else if c = 1 then (if k = 0 then -d2dz else if k = 1 then 0 else d2dx)
  else (if k = 0 then d3dy else if k = 1 then -d3dx else 0)

/-- The divergences. -/
noncomputable def trueDiv (S : Seq ℝ) (i j _k : Nat) : ℝ :=
  let q := S.unravelQuad j
  let c := (S.L2.dims.unravelIndex i).1
  let a := (S.L2.dims.unravelIndex i).2
  if c = 0 then S.trueDiffR a.1 q.1 * S.dlamT.get a.2.1 q.2.1 * S.dlamZ.get a.2.2 q.2.2
  else if c = 1 then S.dlamR.get a.1 q.1 * S.trueDiffT a.2.1 q.2.1 * S.dlamZ.get a.2.2 q.2.2
  else S.dlamR.get a.1 q.1 * S.dlamT.get a.2.1 q.2.1 * S.trueDiffZ a.2.2 q.2.2

section
variable (edr : S.L0.dims.dr = S.L0.dims.nr - 1) (edt : S.L0.dims.dt = S.L0.dims.nt) (edz : S.L0.dims.dz = S.L0.dims.nz)

include edr in
theorem T3_trueR (b c : Nat) (C : Nat → Nat → Nat → ℝ) (v w : Nat → ℝ) (q : Nat) :
    T3 S.L0.dims.nr b c C (fun i => S.trueDiffR i q) v w
      = T3 S.L0.dims.dr b c (Δr S.L0.dims.nr C) (fun i => S.dlamR.get i q) v w := by
  rw [T3_r, T3_r]
  refine Finset.sum_congr rfl fun j hj => Finset.sum_congr rfl fun l hl => ?_
  congr 1
  rw [edr]
  exact sbp_free S.L0.dims.nr (fun i => C i j l) (fun i => S.dlamR.get i q)

include edt in
theorem T3_trueT (a c : Nat) (C : Nat → Nat → Nat → ℝ) (u w : Nat → ℝ) (q : Nat) :
    T3 a S.L0.dims.nt c C u (fun i => S.trueDiffT i q) w
      = T3 a S.L0.dims.dt c (Δt S.L0.dims.nt C) u (fun i => S.dlamT.get i q) w := by
  rw [T3_t, T3_t]
  refine Finset.sum_congr rfl fun j hj => Finset.sum_congr rfl fun l hl => ?_
  congr 1
  rw [edt]
  exact sbp_cyclic S.L0.dims.nt (fun i => C j i l) (fun i => S.dlamT.get i q)

include edz in
theorem T3_trueZ (a b : Nat) (C : Nat → Nat → Nat → ℝ) (u v : Nat → ℝ) (q : Nat) :
    T3 a b S.L0.dims.nz C u v (fun i => S.trueDiffZ i q)
      = T3 a b S.L0.dims.dz (Δz S.L0.dims.nz C) u v (fun i => S.dlamZ.get i q) := by
  rw [T3_z, T3_z]
  refine Finset.sum_congr rfl fun j hj => Finset.sum_congr rfl fun l hl => ?_
  congr 1
  rw [edz]
  exact sbp_cyclic S.L0.dims.nz (fun i => C j l i) (fun i => S.dlamZ.get i q)

variable (hw : S.WF)
include edr edt edz hw

theorem tfield0 (v : Fin S.L0.dims.n → ℝ) (j k : Nat) (hk : k < 3) :
    evaluateAtXq S.trueGrad v j k = S.compVal S.L1.dims (extDeriv S.L0.dims (coef S.L0.dims v) k) k j := by
  have hd1 := (nr_eq hw).1
  unfold evaluateAtXq
  have s0 : S.L0.dims.cshape 0 = (S.L0.dims.nr, S.L0.dims.nt, S.L0.dims.nz) := by simp [Dims.cshape, Dims.shape, hw.k0]
  have s1 : S.L0.dims.cshape 1 = (0, 0, 0) := by simp [Dims.cshape, Dims.shape, hw.k0]
  have s2 : S.L0.dims.cshape 2 = (0, 0, 0) := by simp [Dims.cshape, Dims.shape, hw.k0]
  rw [field_vec _ hw.f0.k v (fun a => S.trueGrad a j k) (fun c => if c = 0 then 1 else 0)
    (fun _ i => if k = 0 then S.trueDiffR i (S.unravelQuad j).1 else S.lamR.get i (S.unravelQuad j).1)
    (fun _ i => if k = 1 then S.trueDiffT i (S.unravelQuad j).2.1 else S.lamT.get i (S.unravelQuad j).2.1)
    (fun _ i => if k = 2 then S.trueDiffZ i (S.unravelQuad j).2.2 else S.lamZ.get i (S.unravelQuad j).2.2)]
  · rw [s0, if_pos rfl, if_neg (by decide), if_neg (by decide), one_mul, zero_mul, zero_mul, add_zero, add_zero]
    unfold compVal
    rw [hd1]
    obtain ⟨e0, e1, e2⟩ := ext0 hw.k0 (coef S.L0.dims v)
    interval_cases k
    · rw [e0]
      simp only [if_true, show ¬ (0 = 1) by decide, show ¬ (0 = 2) by decide, if_false]
      rw [T3_trueR edr]
      rfl
    · rw [e1]
      simp only [if_true, show ¬ (1 = 0) by decide, show ¬ (1 = 2) by decide, if_false]
      rw [T3_trueT edt]
      rfl
    · rw [e2]
      simp only [if_true, show ¬ (2 = 0) by decide, show ¬ (2 = 1) by decide, if_false]
      rw [T3_trueZ edz]
      rfl
  · intro c i1 i2 i3 hc hin
    unfold trueGrad
    rw [Dims.unravelIndex_ravelIndex _ hw.f0.k hin]
    have hcl := hin.comp_lt
    simp [Dims.shape, hw.k0] at hcl
    subst hcl
    interval_cases k <;> simp

theorem tfield1 (v : Fin S.L1.dims.n → ℝ) (j k : Nat) (hk : k < 3) :
    evaluateAtXq S.trueCurl v j k = S.compVal S.L2.dims (extDeriv S.L1.dims (coef S.L1.dims v) k) k j := by
  have hd1 := (nr_eq hw).1
  have hd2 := (nr_eq hw).2.1
  have hdt := edt
  have hdz := edz
  have knt : S.L1.dims.nt = S.L0.dims.nt := by rw [hd1]
  have hk1 : S.L1.dims.k = 1 := by rw [hd1]
  have enr : S.L1.dims.nr = S.L0.dims.nr := by rw [hd1]
  have enz : S.L1.dims.nz = S.L0.dims.nz := by rw [hd1]
  unfold evaluateAtXq
  have s0 : S.L1.dims.cshape 0 = (S.L0.dims.dr, S.L0.dims.nt, S.L0.dims.nz) := by simp [Dims.cshape, Dims.shape, hd1]
  have s1 : S.L1.dims.cshape 1 = (S.L0.dims.nr, S.L0.dims.dt, S.L0.dims.nz) := by simp [Dims.cshape, Dims.shape, hd1]
  have s2 : S.L1.dims.cshape 2 = (S.L0.dims.nr, S.L0.dims.nt, S.L0.dims.dz) := by simp [Dims.cshape, Dims.shape, hd1]
  have t0 : S.L2.dims.cshape 0 = (S.L0.dims.nr, S.L0.dims.dt, S.L0.dims.dz) := by simp [Dims.cshape, Dims.shape, hd2]
  have t1 : S.L2.dims.cshape 1 = (S.L0.dims.dr, S.L0.dims.nt, S.L0.dims.dz) := by simp [Dims.cshape, Dims.shape, hd2]
  have t2 : S.L2.dims.cshape 2 = (S.L0.dims.dr, S.L0.dims.dt, S.L0.dims.nz) := by simp [Dims.cshape, Dims.shape, hd2]
  have hk2 : S.L2.dims.k = 2 := by rw [hd2]
  obtain ⟨e0, e1, e2⟩ := ext1 hk1 (coef S.L1.dims v)
  rw [knt, enz] at e0; rw [enr, enz] at e1; rw [enr, knt] at e2
  rw [field_vec _ hw.f1.k v (fun a => S.trueCurl a j k)
    (fun c => if c = k then 0 else if (c + 1) % 3 = k then 1 else -1)
    (fun c i => if c ≠ 0 ∧ k ≠ 0 ∧ c ≠ k then S.trueDiffR i (S.unravelQuad j).1
      else if c = 0 then S.dlamR.get i (S.unravelQuad j).1 else S.lamR.get i (S.unravelQuad j).1)
    (fun c i => if c ≠ 1 ∧ k ≠ 1 ∧ c ≠ k then S.trueDiffT i (S.unravelQuad j).2.1
      else if c = 1 then S.dlamT.get i (S.unravelQuad j).2.1 else S.lamT.get i (S.unravelQuad j).2.1)
    (fun c i => if c ≠ 2 ∧ k ≠ 2 ∧ c ≠ k then S.trueDiffZ i (S.unravelQuad j).2.2
      else if c = 2 then S.dlamZ.get i (S.unravelQuad j).2.2 else S.lamZ.get i (S.unravelQuad j).2.2)]
  · rw [s0, s1, s2]
    unfold compVal
    rw [hk2]
    have d01 : ¬ ((0:Nat) = 1) := by decide
    have d02 : ¬ ((0:Nat) = 2) := by decide
    have d10 : ¬ ((1:Nat) = 0) := by decide
    have d20 : ¬ ((2:Nat) = 0) := by decide
    have d12 : ¬ ((1:Nat) = 2) := by decide
    have d21 : ¬ ((2:Nat) = 1) := by decide
    have m0 : (0 + 1) % 3 = 1 := by decide
    have m1 : (1 + 1) % 3 = 2 := by decide
    have m2 : (2 + 1) % 3 = 0 := by decide
    interval_cases k
    · rw [e0, t0, T3_sub]
      simp only [d01, d02, d10, d20, d12, d21, m0, m1, m2, if_true, if_false, ne_eq, not_true_eq_false, not_false_eq_true,
        and_true, and_false, and_self, zero_mul, one_mul, neg_one_mul, zero_add]
      rw [T3_trueT edt, T3_trueZ edz]
      rw [hdz]
      exact (add_comm _ _).trans (sub_eq_add_neg _ _).symm
    · rw [e1, t1, T3_sub]
      simp only [d01, d02, d10, d20, d12, d21, m0, m1, m2, if_true, if_false, ne_eq, not_true_eq_false, not_false_eq_true,
        and_true, and_false, and_self, zero_mul, one_mul, neg_one_mul, zero_add, add_zero]
      rw [T3_trueR edr, T3_trueZ edz]
      exact (sub_eq_add_neg _ _).symm
    · rw [e2, t2, T3_sub]
      simp only [d01, d02, d10, d20, d12, d21, m0, m1, m2, if_true, if_false, ne_eq, not_true_eq_false, not_false_eq_true,
        and_true, and_false, and_self, zero_mul, one_mul, neg_one_mul, zero_add, add_zero]
      rw [T3_trueR edr, T3_trueT edt]
      exact (add_comm _ _).trans (sub_eq_add_neg _ _).symm
  · intro c i1 i2 i3 hc hin
    unfold trueCurl
    rw [Dims.unravelIndex_ravelIndex _ hw.f1.k hin]
    interval_cases c <;> interval_cases k <;> simp [knt]

theorem tfield2 (v : Fin S.L2.dims.n → ℝ) (j k : Nat) :
    evaluateAtXq S.trueDiv v j k = S.compVal S.L3.dims (extDeriv S.L2.dims (coef S.L2.dims v) 0) 0 j := by
  have hd2 := (nr_eq hw).2.1
  have hd3 := (nr_eq hw).2.2
  have knt : S.L2.dims.nt = S.L0.dims.nt := by rw [hd2]
  have hk2 : S.L2.dims.k = 2 := by rw [hd2]
  have enr : S.L2.dims.nr = S.L0.dims.nr := by rw [hd2]
  have enz : S.L2.dims.nz = S.L0.dims.nz := by rw [hd2]
  unfold evaluateAtXq
  have t0 : S.L2.dims.cshape 0 = (S.L0.dims.nr, S.L0.dims.dt, S.L0.dims.dz) := by simp [Dims.cshape, Dims.shape, hd2]
  have t1 : S.L2.dims.cshape 1 = (S.L0.dims.dr, S.L0.dims.nt, S.L0.dims.dz) := by simp [Dims.cshape, Dims.shape, hd2]
  have t2 : S.L2.dims.cshape 2 = (S.L0.dims.dr, S.L0.dims.dt, S.L0.dims.nz) := by simp [Dims.cshape, Dims.shape, hd2]
  have u0 : S.L3.dims.cshape 0 = (S.L0.dims.dr, S.L0.dims.dt, S.L0.dims.dz) := by simp [Dims.cshape, Dims.shape, hd3]
  have hk3 : S.L3.dims.k = 3 := by rw [hd3]
  rw [field_vec _ hw.f2.k v (fun a => S.trueDiv a j k) (fun _ => 1)
    (fun c i => if c = 0 then S.trueDiffR i (S.unravelQuad j).1 else S.dlamR.get i (S.unravelQuad j).1)
    (fun c i => if c = 1 then S.trueDiffT i (S.unravelQuad j).2.1 else S.dlamT.get i (S.unravelQuad j).2.1)
    (fun c i => if c = 2 then S.trueDiffZ i (S.unravelQuad j).2.2 else S.dlamZ.get i (S.unravelQuad j).2.2)]
  · rw [ext2 hk2, t0, t1, t2]
    unfold compVal
    rw [hk3, u0]
    have d01 : ¬ ((0:Nat) = 1) := by decide
    have d02 : ¬ ((0:Nat) = 2) := by decide
    have d10 : ¬ ((1:Nat) = 0) := by decide
    have d20 : ¬ ((2:Nat) = 0) := by decide
    have d12 : ¬ ((1:Nat) = 2) := by decide
    have d21 : ¬ ((2:Nat) = 1) := by decide
    simp only [d01, d02, d10, d20, d12, d21, if_true, if_false, one_mul]
    rw [T3_trueR edr, T3_trueT edt, T3_trueZ edz, T3_add, T3_add, enr, knt, enz]
    rfl
  · intro c i1 i2 i3 hc hin
    unfold trueDiv
    rw [Dims.unravelIndex_ravelIndex _ hw.f2.k hin]
    interval_cases c <;> simp [knt]
end

/-- Arrays with the same values at the quadrature points agree. -/
theorem compVal_inj (hq : S.QuadOK) (d : Dims) (hd : d = S.L1.dims ∨ d = S.L2.dims ∨ d = S.L3.dims) {V V' : Nat → Nat → Nat → ℝ} {c : Nat}
    (h : ∀ j < S.nq, S.compVal d V c j = S.compVal d V' c j) (i m l : Nat) (hin : d.InRange c i m l) : V i m l = V' i m l := by
  obtain ⟨e1, e2, e3⟩ := nr_eq hq.wf
  have hc := hin.comp_lt
  have hz : ∀ j < S.nq, S.compVal d (fun i m l => V i m l - V' i m l) c j = 0 := fun j hj => by
    have := h j hj
    unfold compVal at this ⊢
    rw [T3_sub, this, sub_self]
  unfold compVal at hz
  rw [← sub_eq_zero]
  rcases hd with rfl | rfl | rfl
  · simp [Dims.shape, e1] at hc
    refine T3_zero hq ?_ ?_ ?_ hz i hin.1 m hin.2.1 l hin.2.2 <;>
      rw [e1] <;> interval_cases c <;> simp [Dims.cshape, Dims.shape, isDeriv]
  · simp [Dims.shape, e2] at hc
    refine T3_zero hq ?_ ?_ ?_ hz i hin.1 m hin.2.1 l hin.2.2 <;>
      rw [e2] <;> interval_cases c <;> simp [Dims.cshape, Dims.shape, isDeriv]
  · simp [Dims.shape, e3] at hc
    subst hc
    refine T3_zero hq ?_ ?_ ?_ hz i hin.1 m hin.2.1 l hin.2.2 <;>
      rw [e3] <;> simp [Dims.cshape, Dims.shape, isDeriv]

end Seq

namespace Props

section
variable {ns ps : Nat × Nat × Nat} {q : Nat} {tt tz : String} {S : Seq ℝ}

theorem trueGrad_eq (h : Standard ns ps q tt tz S) (j : Nat) (x : ℝ × ℝ × ℝ) (hx : S.Q.x[j]? = some x) (i : Nat) (hi : i < S.L0.dims.n)
    (dir : Nat) (hdir : dir < 3) : gradP S x (S.L0.dims.unravelIndex i) j dir = S.trueGrad i j dir := by
  obtain ⟨hw, ht, hd, hlen, er, et, ez⟩ := h.facts
  have hj : j < S.nq := by rw [← hlen]; exact (List.getElem?_eq_some_iff.mp hx).1
  have hp : S.point j = x := by unfold Seq.point; rw [List.getD_eq_getElem?_getD, hx]; rfl
  obtain ⟨h1, h2⟩ := S.L0.dims.unravelIndex_inRange hw.f0.k hi
  unfold gradP Seq.trueGrad
  have hc : (S.L0.dims.unravelIndex i).1 = 0 := by
    have := h1.comp_lt; rw [show S.L0.dims.shape.length = 1 by simp [Dims.shape, hw.k0]] at this; omega
  generalize S.L0.dims.unravelIndex i = u at *
  obtain ⟨a1, a2, a3, _⟩ := S.unravelQuad_spec hj
  have hpt := S.point_eq ht hj
  rw [hp] at hpt
  obtain ⟨r1, r2, r3⟩ := h1
  rw [hc] at r1 r2 r3
  simp [Dims.cshape, Dims.shape, hw.k0] at r1 r2 r3
  have hcase : dir = 0 ∨ dir = 1 ∨ dir = 2 := by omega
  rcases hcase with rfl | rfl | rfl <;>
    simp [factor, isDeriv, Seq.lamR_get hw r1 a1, Seq.lamT_get hw r2 a2, Seq.lamZ_get hw r3 a3, hpt]

theorem trueCurl_eq (h : Standard ns ps q tt tz S) (j : Nat) (x : ℝ × ℝ × ℝ) (hx : S.Q.x[j]? = some x) (i : Nat) (hi : i < S.L1.dims.n) :
    S.trueCurl i j 0 = curlP S x (S.L1.dims.unravelIndex i) j 2 1 - curlP S x (S.L1.dims.unravelIndex i) j 1 2 ∧
    S.trueCurl i j 1 = curlP S x (S.L1.dims.unravelIndex i) j 0 2 - curlP S x (S.L1.dims.unravelIndex i) j 2 0 ∧
    S.trueCurl i j 2 = curlP S x (S.L1.dims.unravelIndex i) j 1 0 - curlP S x (S.L1.dims.unravelIndex i) j 0 1 := by
  obtain ⟨hw, ht, hd, hlen, er, et, ez⟩ := h.facts
  have hj : j < S.nq := by rw [← hlen]; exact (List.getElem?_eq_some_iff.mp hx).1
  have hp : S.point j = x := by unfold Seq.point; rw [List.getD_eq_getElem?_getD, hx]; rfl
  obtain ⟨h1, h2⟩ := S.L1.dims.unravelIndex_inRange hw.f1.k hi
  unfold curlP Seq.trueCurl
  have hc : (S.L1.dims.unravelIndex i).1 < 3 := by
    have := h1.comp_lt; rw [show S.L1.dims.shape.length = 3 by rw [hw.e1]; simp [Dims.shape]] at this; exact this
  generalize S.L1.dims.unravelIndex i = u at *
  obtain ⟨a1, a2, a3, _⟩ := S.unravelQuad_spec hj
  have hpt := S.point_eq ht hj
  rw [hp] at hpt
  obtain ⟨r1, r2, r3⟩ := h1
  rw [hw.e1] at *
  have hcase : u.1 = 0 ∨ u.1 = 1 ∨ u.1 = 2 := by omega
  rcases hcase with hc | hc | hc <;> rw [hc] at r1 r2 r3 <;>
    simp [Dims.cshape, Dims.shape] at r1 r2 r3
  · simp [hc, factor, isDeriv, Seq.dlamR_get hw r1 a1, Seq.lamT_get hw r2 a2, Seq.lamZ_get hw r3 a3, hpt]
  · simp [hc, factor, isDeriv, Seq.lamR_get hw r1 a1, Seq.dlamT_get hw r2 a2, Seq.lamZ_get hw r3 a3, hpt]
  · simp [hc, factor, isDeriv, Seq.lamR_get hw r1 a1, Seq.lamT_get hw r2 a2, Seq.dlamZ_get hw r3 a3, hpt]

theorem trueDiv_eq (h : Standard ns ps q tt tz S) (j : Nat) (x : ℝ × ℝ × ℝ) (hx : S.Q.x[j]? = some x) (i : Nat) (hi : i < S.L2.dims.n) (k : Nat) :
    S.trueDiv i j k = divP S x (S.L2.dims.unravelIndex i) j 0 + divP S x (S.L2.dims.unravelIndex i) j 1 + divP S x (S.L2.dims.unravelIndex i) j 2 := by
  obtain ⟨hw, ht, hd, hlen, er, et, ez⟩ := h.facts
  have hj : j < S.nq := by rw [← hlen]; exact (List.getElem?_eq_some_iff.mp hx).1
  have hp : S.point j = x := by unfold Seq.point; rw [List.getD_eq_getElem?_getD, hx]; rfl
  obtain ⟨h1, h2⟩ := S.L2.dims.unravelIndex_inRange hw.f2.k hi
  unfold divP Seq.trueDiv
  have hc : (S.L2.dims.unravelIndex i).1 < 3 := by
    have := h1.comp_lt; rw [show S.L2.dims.shape.length = 3 by rw [hw.e2]; simp [Dims.shape]] at this; exact this
  generalize S.L2.dims.unravelIndex i = u at *
  obtain ⟨a1, a2, a3, _⟩ := S.unravelQuad_spec hj
  have hpt := S.point_eq ht hj
  rw [hp] at hpt
  obtain ⟨r1, r2, r3⟩ := h1
  rw [hw.e2] at *
  have hcase : u.1 = 0 ∨ u.1 = 1 ∨ u.1 = 2 := by omega
  rcases hcase with hc | hc | hc <;> rw [hc] at r1 r2 r3 <;>
    simp [Dims.cshape, Dims.shape] at r1 r2 r3
  · simp [hc, factor, isDeriv, Seq.dlamT_get hw r2 a2, Seq.dlamZ_get hw r3 a3, hpt]
  · simp [hc, factor, isDeriv, Seq.dlamR_get hw r1 a1, Seq.dlamZ_get hw r3 a3, hpt]
  · simp [hc, factor, isDeriv, Seq.dlamR_get hw r1 a1, Seq.dlamT_get hw r2 a2, hpt]
end

section
variable {ns ps : Nat × Nat × Nat} {q : Nat} {types : String × String × String} {F : V3 → V3} {polar dirichlet : Bool} {D : DeRham}

theorem standard_of' (h : Admissible ns ps q types F polar dirichlet D) (hr : types.1 = "clamped") (ht : types.2.1 ≠ "clamped")
    (hz : types.2.2 ≠ "clamped") : Resolved ns ps q types.2.1 types.2.2 D.S := by
  have hs := Admissible.seq h.built
  have a := h.r
  rw [hr] at a
  refine ⟨?_, h.q10, a, h.t, h.z, ht, hz⟩
  rw [← hr]; exact hs

/-- The true gradients of discrete functions, in terms of the tables. -/
theorem true_grad (h : Admissible ns ps q types F polar dirichlet D) (hs : Standard ns ps q types.2.1 types.2.2 D.S) (u : Fin D.m0 → ℝ) (j : Nat)
    (x : ℝ × ℝ × ℝ) (hj : D.S.Q.x[j]? = some x) (dir : Nat) (hdir : dir < 3) :
    HasPartial (fun y => discreteFunction D.S.L0 u D.E0 y 0) dir (evaluateAtXq D.S.trueGrad (D.E0ᵀ *ᵥ u) j dir) x := by
  rw [discrete_sum, evaluate_sum]
  refine hasPartial_sum _ _ _ fun i => Or.inr ?_
  rw [← trueGrad_eq hs j x hj i i.2 dir hdir]
  exact gradP_spec hs j x hj i i.2 dir hdir

theorem true_curl (h : Admissible ns ps q types F polar dirichlet D) (hs : Standard ns ps q types.2.1 types.2.2 D.S) (v : Fin D.m1 → ℝ) (j : Nat)
    (x : ℝ × ℝ × ℝ) (hj : D.S.Q.x[j]? = some x) (P : Nat → Nat → ℝ)
    (hP : ∀ comp < 3, ∀ dir < 3, comp ≠ dir → HasPartial (fun y => discreteFunction D.S.L1 v D.E1 y comp) dir (P comp dir) x) :
    evaluateAtXq D.S.trueCurl (D.E1ᵀ *ᵥ v) j 0 = P 2 1 - P 1 2 ∧ evaluateAtXq D.S.trueCurl (D.E1ᵀ *ᵥ v) j 1 = P 0 2 - P 2 0 ∧
      evaluateAtXq D.S.trueCurl (D.E1ᵀ *ᵥ v) j 2 = P 1 0 - P 0 1 := by
  have hp : ∀ comp < 3, ∀ dir < 3, comp ≠ dir →
      P comp dir = ∑ i, (D.E1ᵀ *ᵥ v) i * curlP D.S x (D.S.L1.dims.unravelIndex i) j comp dir := by
    intro comp hc dir hd hne
    refine HasPartial.unique (hP comp hc dir hd hne) ?_
    rw [discrete_sum]
    exact hasPartial_sum _ _ _ fun i => Or.inr (curlP_spec hs j x hj i i.2 comp hc dir hd hne)
  simp only [evaluate_sum]
  rw [hp 2 (by omega) 1 (by omega) (by omega), hp 1 (by omega) 2 (by omega) (by omega), hp 0 (by omega) 2 (by omega) (by omega),
    hp 2 (by omega) 0 (by omega) (by omega), hp 1 (by omega) 0 (by omega) (by omega), hp 0 (by omega) 1 (by omega) (by omega)]
  simp only [← Finset.sum_sub_distrib, ← mul_sub]
  refine ⟨sum_congr rfl fun i _ => ?_, sum_congr rfl fun i _ => ?_, sum_congr rfl fun i _ => ?_⟩
  · rw [(trueCurl_eq hs j x hj i i.2).1]
  · rw [(trueCurl_eq hs j x hj i i.2).2.1]
  · rw [(trueCurl_eq hs j x hj i i.2).2.2]

theorem true_div (h : Admissible ns ps q types F polar dirichlet D) (hs : Standard ns ps q types.2.1 types.2.2 D.S) (w : Fin D.m2 → ℝ) (j : Nat)
    (x : ℝ × ℝ × ℝ) (hj : D.S.Q.x[j]? = some x) (P : Nat → ℝ)
    (hP : ∀ comp < 3, HasPartial (fun y => discreteFunction D.S.L2 w D.E2 y comp) comp (P comp) x) :
    evaluateAtXq D.S.trueDiv (D.E2ᵀ *ᵥ w) j 0 = P 0 + P 1 + P 2 := by
  have hp : ∀ comp < 3, P comp = ∑ i, (D.E2ᵀ *ᵥ w) i * divP D.S x (D.S.L2.dims.unravelIndex i) j comp := by
    intro comp hc
    refine HasPartial.unique (hP comp hc) ?_
    rw [discrete_sum]
    exact hasPartial_sum _ _ _ fun i => Or.inr (divP_spec hs j x hj i i.2 comp hc)
  rw [evaluate_sum, hp 0 (by omega), hp 1 (by omega), hp 2 (by omega), ← Finset.sum_add_distrib, ← Finset.sum_add_distrib]
  refine sum_congr rfl fun i _ => ?_
  rw [trueDiv_eq hs j x hj i i.2]; ring

/-- On arrays: exactness of the gradient is equality of the coded and the true differences. -/
theorem grad_arrays (h : Admissible ns ps q types F polar dirichlet D) (hr : types.1 = "clamped") (ht : types.2.1 ≠ "clamped")
    (hz : types.2.2 ≠ "clamped") (u : Fin D.m0 → ℝ)
    (H : ∀ x ∈ D.S.Q.x, ∀ dir < 3, HasPartial (fun y => discreteFunction D.S.L0 u D.E0 y 0) dir
      (discreteFunction D.S.L1 (D.strongGrad *ᵥ u) D.E1 x dir) x) (c i m l : Nat) (hin : D.S.L1.dims.InRange c i m l) :
    extDeriv D.S.L0.dims (coef D.S.L0.dims (D.E0ᵀ *ᵥ u)) c i m l = codeDeriv D.S.L0.dims (coef D.S.L0.dims (D.E0ᵀ *ᵥ u)) c i m l := by
  have hR := standard_of' h hr ht hz
  have hs := hR.standard
  obtain ⟨hw, _, hd, hlen, er, et, ez⟩ := hs.facts
  rw [← (h.complex.grad u).2 c i m l hin]
  have hc := hin.comp_lt
  rw [show D.S.L1.dims.shape.length = 3 by rw [hw.e1]; simp [Dims.shape]] at hc
  refine Seq.compVal_inj hR.quad _ (Or.inl rfl) (fun j hj => ?_) i m l hin
  have hx := quad_at hR hj
  rw [← Seq.tfield0 hd.dr hd.dt hd.dz hw _ j c hc, ← Seq.field1 hw _ j c hc, (C39_evaluate_is_discrete_function h j _ hx).2.1 _ c hc]
  exact HasPartial.unique (true_grad h hs u j _ hx c hc) (H _ (List.mem_of_getElem? hx) c hc)

theorem curl_arrays (h : Admissible ns ps q types F polar dirichlet D) (hr : types.1 = "clamped") (ht : types.2.1 ≠ "clamped")
    (hz : types.2.2 ≠ "clamped") (v : Fin D.m1 → ℝ)
    (H : ∀ x ∈ D.S.Q.x, ∃ P : Nat → Nat → ℝ,
      (∀ comp < 3, ∀ dir < 3, comp ≠ dir → HasPartial (fun y => discreteFunction D.S.L1 v D.E1 y comp) dir (P comp dir) x) ∧
      discreteFunction D.S.L2 (D.strongCurl *ᵥ v) D.E2 x 0 = P 2 1 - P 1 2 ∧
      discreteFunction D.S.L2 (D.strongCurl *ᵥ v) D.E2 x 1 = P 0 2 - P 2 0 ∧
      discreteFunction D.S.L2 (D.strongCurl *ᵥ v) D.E2 x 2 = P 1 0 - P 0 1) (c i m l : Nat) (hin : D.S.L2.dims.InRange c i m l) :
    extDeriv D.S.L1.dims (coef D.S.L1.dims (D.E1ᵀ *ᵥ v)) c i m l = codeDeriv D.S.L1.dims (coef D.S.L1.dims (D.E1ᵀ *ᵥ v)) c i m l := by
  have hR := standard_of' h hr ht hz
  have hs := hR.standard
  obtain ⟨hw, _, hd, hlen, er, et, ez⟩ := hs.facts
  rw [← (h.complex.curl v).2 c i m l hin]
  have hc := hin.comp_lt
  rw [show D.S.L2.dims.shape.length = 3 by rw [hw.e2]; simp [Dims.shape]] at hc
  refine Seq.compVal_inj hR.quad _ (Or.inr (Or.inl rfl)) (fun j hj => ?_) i m l hin
  have hx := quad_at hR hj
  rw [← Seq.tfield1 hd.dr hd.dt hd.dz hw _ j c hc, ← Seq.field2 hw _ j c hc, (C39_evaluate_is_discrete_function h j _ hx).2.2.1 _ c hc]
  obtain ⟨P, hP, e0, e1, e2⟩ := H _ (List.mem_of_getElem? hx)
  obtain ⟨f0, f1, f2⟩ := true_curl h hs v j _ hx P hP
  interval_cases c
  · rw [f0, e0]
  · rw [f1, e1]
  · rw [f2, e2]

theorem div_arrays (h : Admissible ns ps q types F polar dirichlet D) (hr : types.1 = "clamped") (ht : types.2.1 ≠ "clamped")
    (hz : types.2.2 ≠ "clamped") (w : Fin D.m2 → ℝ)
    (H : ∀ x ∈ D.S.Q.x, ∃ P : Nat → ℝ, (∀ comp < 3, HasPartial (fun y => discreteFunction D.S.L2 w D.E2 y comp) comp (P comp) x) ∧
      discreteFunction D.S.L3 (D.strongDiv *ᵥ w) D.E3 x 0 = P 0 + P 1 + P 2) (i m l : Nat) (hin : D.S.L3.dims.InRange 0 i m l) :
    extDeriv D.S.L2.dims (coef D.S.L2.dims (D.E2ᵀ *ᵥ w)) 0 i m l = codeDeriv D.S.L2.dims (coef D.S.L2.dims (D.E2ᵀ *ᵥ w)) 0 i m l := by
  have hR := standard_of' h hr ht hz
  have hs := hR.standard
  obtain ⟨hw, _, hd, hlen, er, et, ez⟩ := hs.facts
  rw [← (h.complex.div w).2 0 i m l hin]
  refine Seq.compVal_inj hR.quad _ (Or.inr (Or.inr rfl)) (fun j hj => ?_) i m l hin
  have hx := quad_at hR hj
  rw [← Seq.tfield2 hd.dr hd.dt hd.dz hw _ j 0, ← Seq.field3' hw _ j 0, (C39_evaluate_is_discrete_function h j _ hx).2.2.2 _]
  obtain ⟨P, hP, e0⟩ := H _ (List.mem_of_getElem? hx)
  rw [true_div h hs w j _ hx P hP, e0]

/-- A radial profile whose coded difference is wrong. -/
theorem rad_ne {polar dir : Bool} {N M : Nat} (hN : 2 ≤ N) (hM : 1 ≤ M) (hp : polar = true → 3 ≤ N ∧ 3 ≤ M)
    (hne : ¬ (N = M ∨ (dir = true ∧ (N ≤ M ∨ M = 1)))) :
    ∃ f : Fin N → ℝ, f ∈ F0 polar dir N ∧ f ∈ F1 polar dir N ∧ ∃ i < N - 1, codeRad N M (exf f) i ≠ exf f ((i + 1) % N) - exf f i := by
  obtain ⟨k, hk⟩ : ∃ k, k = if N < M then N - 1 else M - 1 := ⟨_, rfl⟩
  have kk : k < N := by subst hk; split_ifs <;> omega
  obtain ⟨f, hf⟩ : ∃ f : Fin N → ℝ, ∀ m, exf f m = if m = k then 1 else 0 := by
    refine ⟨fun m => if m.1 = k then 1 else 0, fun m => ?_⟩
    by_cases hm : m < N
    · exact exf_of (fun m => if m = k then 1 else 0) hm
    · unfold exf
      rw [dif_neg hm, if_neg (by omega)]
  refine ⟨f, mem_F0.mpr ?_, mem_F1.mpr ?_, ?_⟩
  · simp only [hf]
    refine ⟨fun e => ?_, fun e => ?_, fun e e' => ?_⟩
    · have := hp e
      have : 2 ≤ k := by subst hk; split_ifs <;> omega
      rw [if_neg (by omega), if_neg (by omega)]
    · rw [if_neg]
      intro h; apply hne; subst hk; split_ifs at h
      · exact Or.inr ⟨e, Or.inl (by omega)⟩
      · exact Or.inl (by omega)
    · rw [if_neg]
      intro h; apply hne; subst hk; split_ifs at h
      · omega
      · exact Or.inr ⟨e', Or.inr (by omega)⟩
  · simp only [hf]
    refine ⟨fun e => ?_, fun e => ?_, fun e e' => ?_⟩
    · have := hp e
      have : 2 ≤ k := by subst hk; split_ifs <;> omega
      rw [if_neg (by omega), if_neg (by omega)]
      exact ⟨rfl, rfl⟩
    · rw [if_neg]
      intro h; apply hne; subst hk; split_ifs at h
      · exact Or.inr ⟨e, Or.inl (by omega)⟩
      · exact Or.inl (by omega)
    · rw [if_neg]
      intro h; apply hne; subst hk; split_ifs at h
      · omega
      · exact Or.inr ⟨e', Or.inr (by omega)⟩
  · have nm : N ≠ M := fun e => hne (Or.inl e)
    unfold codeRad
    simp only [hf]
    by_cases hlt : N < M
    · rw [if_pos hlt] at hk
      refine ⟨N - 2, by omega, ?_⟩
      rw [Nat.mod_eq_of_lt (by omega)]
      rw [if_pos (by omega : N - 2 + 1 = k), if_pos (by omega), if_neg (by omega : ¬ N - 2 = k), if_pos (by omega : N - 2 + 2 = N ∧ N ≠ M),
        if_pos (by omega : N - 1 = k)]
      norm_num
    · rw [if_neg hlt] at hk
      refine ⟨M - 1, by omega, ?_⟩
      rw [Nat.mod_eq_of_lt (by omega)]
      rw [if_neg (by omega : ¬ M - 1 + 1 = k), if_neg (by omega : ¬ (M - 1 + 1 ≠ M)), if_pos (by omega : M - 1 = k),
        if_neg (by omega : ¬ N - 1 = k)]
      split_ifs <;> norm_num

/-- An axial profile whose coded difference is wrong. -/
theorem ax_ne {M L : Nat} (hM : 1 ≤ M) (h : M < L) : ∃ w : Nat → ℝ, ∃ l < L, codeAx M L w l ≠ w ((l + 1) % L) - w l := by
  refine ⟨fun l => if l = 0 then 1 else 0, M - 1, by omega, ?_⟩
  unfold codeAx
  beta_reduce
  rw [Nat.mod_eq_of_lt (by omega), if_pos (by omega : M - 1 + 1 < L), if_pos (by omega : M - 1 = min (M - 1) (L - 1)),
    if_neg (by omega : ¬ M - 1 + 1 = 0)]
  norm_num

/-- Coded differences of the coefficients are right only for these sizes: gradients. -/
theorem grad_sizes (h : Admissible ns ps q types F polar dirichlet D) (hr : types.1 = "clamped") (ht : types.2.1 ≠ "clamped")
    (hz : types.2.2 ≠ "clamped")
    (h3 : dirichlet = true → 3 ≤ ns.1) (H : ∀ u c i m l, D.S.L1.dims.InRange c i m l → extDeriv D.S.L0.dims (coef D.S.L0.dims (D.E0ᵀ *ᵥ u)) c i m l
      = codeDeriv D.S.L0.dims (coef D.S.L0.dims (D.E0ᵀ *ᵥ u)) c i m l) :
    ns.2.2 ≤ ns.2.1 ∧ (ns.1 = ns.2.1 ∨ (dirichlet = true ∧ (ns.1 ≤ ns.2.1 ∨ ns.2.1 = 1))) := by
  have cw := h.cw hr ht hz
  obtain ⟨_, i0, i1, i2, _⟩ := dk_in ns.1 ns.2.1 ns.2.2
  have hN := cw.hN
  have hM := cw.hM
  have hL := cw.hL
  constructor
  · by_contra hc
    obtain ⟨w, l, hl, hwl⟩ := ax_ne hM (by omega : ns.2.1 < ns.2.2)
    obtain ⟨f, hf⟩ : ∃ f : Fin ns.1 → ℝ, ∀ m, exf f m = if m = 1 ∨ (m = 0 ∧ polar = true) then 1 else 0 := by
      refine ⟨fun m => if m.1 = 1 ∨ (m.1 = 0 ∧ polar = true) then 1 else 0, fun m => ?_⟩
      by_cases hm : m < ns.1
      · exact exf_of (fun m => if m = 1 ∨ (m = 0 ∧ polar = true) then 1 else 0) hm
      · unfold exf
        rw [dif_neg hm, if_neg (by omega)]
    obtain ⟨u, hu⟩ := cw.make0 (P0.profile (M := ns.2.1) (L := ns.2.2) (f := f) hN (fun e => (cw.hp e).1) (mem_F0.mpr (by
      simp only [hf]
      refine ⟨fun e => ?_, fun e => ?_, fun e e' => ?_⟩
      · simp [e]
      · have := h3 e
        rw [if_neg (by omega)]
      · simp [e])) w)
    have := H u 2 1 0 l (by rw [cw.d1]; exact (i2 _ _ _).mpr ⟨by omega, by omega, hl⟩)
    rw [(Seq.ext0 (by rw [cw.d0]; rfl) _).2.2, (code0 (d := D.S.L0.dims) (by rw [cw.d0]; rfl) _).2.2, (cw.ops 0 _ cw.d0 _).2.2 1 0 l hl,
      show D.S.L0.dims.nz = ns.2.2 by rw [cw.d0]; rfl] at this
    unfold Δz at this
    rw [hu 1 (by omega) 0 (by omega) _ (Nat.mod_lt _ (by omega)), hu 1 (by omega) 0 (by omega) l hl,
      codeAx_congr hl (fun l hl => hu 1 (by omega) 0 (by omega) l hl), codeAx_smul, hf, if_pos (Or.inl rfl)] at this
    apply hwl
    linarith
  · by_contra hc
    obtain ⟨f, f0, f1, i, hi, hfi⟩ := rad_ne hN hM cw.hp hc
    obtain ⟨u, hu⟩ := cw.make0 (P0.profile (M := ns.2.1) (L := ns.2.2) hN (fun e => (cw.hp e).1) f0 (fun _ => 1))
    have := H u 0 i 0 0 (by rw [cw.d1]; exact (i0 _ _ _).mpr ⟨hi, by omega, by omega⟩)
    rw [(Seq.ext0 (by rw [cw.d0]; rfl) _).1, (code0 (d := D.S.L0.dims) (by rw [cw.d0]; rfl) _).1, (cw.ops 0 _ cw.d0 _).1 i hi 0 0,
      show D.S.L0.dims.nr = ns.1 by rw [cw.d0]; rfl] at this
    unfold Δr at this
    rw [hu _ (Nat.mod_lt _ (by omega)) 0 (by omega) 0 (by omega), hu i (by omega) 0 (by omega) 0 (by omega),
      codeRad_congr hi (fun m hm => hu m hm 0 (by omega) 0 (by omega))] at this
    simp only [mul_one] at this
    exact hfi this.symm

/-- Curls. -/
theorem curl_sizes (h : Admissible ns ps q types F polar dirichlet D) (hr : types.1 = "clamped") (ht : types.2.1 ≠ "clamped")
    (hz : types.2.2 ≠ "clamped")
    (H : ∀ u c i m l, D.S.L2.dims.InRange c i m l → extDeriv D.S.L1.dims (coef D.S.L1.dims (D.E1ᵀ *ᵥ u)) c i m l
      = codeDeriv D.S.L1.dims (coef D.S.L1.dims (D.E1ᵀ *ᵥ u)) c i m l) :
    ns.2.2 ≤ ns.2.1 ∧ (ns.1 = ns.2.1 ∨ (dirichlet = true ∧ (ns.1 ≤ ns.2.1 ∨ ns.2.1 = 1))) := by
  have cw := h.cw hr ht hz
  obtain ⟨_, _, _, _, i0, i1, i2, _⟩ := dk_in ns.1 ns.2.1 ns.2.2
  have hN := cw.hN
  have hM := cw.hM
  have hL := cw.hL
  have z0 : P0 polar dirichlet ns.1 ns.2.1 ns.2.2 (fun i _ l => exf (0 : Fin ns.1 → ℝ) i * (fun _ => 0) l) :=
    P0.profile hN (fun e => (cw.hp e).1) (zero_mem _) _
  have en : D.S.L1.dims.nr = ns.1 ∧ D.S.L1.dims.nt = ns.2.1 ∧ D.S.L1.dims.nz = ns.2.2 := by rw [cw.d1]; exact ⟨rfl, rfl, rfl⟩
  constructor
  · by_contra hc
    obtain ⟨w, l, hl, hwl⟩ := ax_ne hM (by omega : ns.2.1 < ns.2.2)
    obtain ⟨g, hg⟩ : ∃ g : Fin (ns.1 - 1) → ℝ, ∀ m, exf g m = if m = ns.1 - 2 then 1 else 0 := by
      refine ⟨fun m => if m.1 = ns.1 - 2 then 1 else 0, fun m => ?_⟩
      by_cases hm : m < ns.1 - 1
      · exact exf_of (fun m => if m = ns.1 - 2 then 1 else 0) hm
      · unfold exf
        rw [dif_neg hm, if_neg (by omega)]
    obtain ⟨u, u0, u1, u2⟩ := cw.make1 (P1.profile (M := ns.2.1) (L := ns.2.2) (g := g) hN (zero_mem (F1 polar dirichlet ns.1)) (mem_G1.mpr (by
      intro e
      have := cw.hp e
      rw [hg, if_neg (by omega)])) (fun _ _ => 0) (fun _ => w)) z0
    have := H u 1 (ns.1 - 2) 0 l (by rw [cw.d2]; exact (i1 _ _ _).mpr ⟨by omega, by omega, hl⟩)
    rw [(Seq.ext1 (by rw [cw.d1]; rfl) _).2.1, (code1 (d := D.S.L1.dims) (by rw [cw.d1]; rfl) _).2.1] at this
    beta_reduce at this
    rw [(cw.ops 1 _ cw.d1 _).2.2 (ns.1 - 2) 0 l hl, (cw.ops 1 _ cw.d1 _).1 (ns.1 - 2) (by omega) 0 l, en.1, en.2.2] at this
    unfold Δz Δr at this
    rw [u0 (ns.1 - 2) (by omega) 0 (by omega) _ (Nat.mod_lt _ (by omega)), u0 (ns.1 - 2) (by omega) 0 (by omega) l hl,
      u2 _ (Nat.mod_lt _ (by omega)) 0 (by omega) l hl, u2 (ns.1 - 2) (by omega) 0 (by omega) l hl,
      codeAx_congr hl (fun l hl => u0 (ns.1 - 2) (by omega) 0 (by omega) l hl),
      codeRad_congr (by omega : ns.1 - 2 < ns.1 - 1) (fun m hm => u2 m hm 0 (by omega) l hl), codeAx_smul, hg, if_pos rfl] at this
    simp only [mul_zero, codeRad_zero'] at this
    apply hwl
    linarith
  · by_contra hc
    obtain ⟨f, f0, f1, i, hi, hfi⟩ := rad_ne hN hM cw.hp hc
    obtain ⟨u, u0, u1, u2⟩ := cw.make1 (P1.profile (M := ns.2.1) (L := ns.2.2) hN f1 (zero_mem (G1 polar ns.1)) (fun _ _ => 1) (fun _ _ => 0)) z0
    have := H u 2 i 0 0 (by rw [cw.d2]; exact (i2 _ _ _).mpr ⟨hi, by omega, by omega⟩)
    rw [(Seq.ext1 (by rw [cw.d1]; rfl) _).2.2, (code1 (d := D.S.L1.dims) (by rw [cw.d1]; rfl) _).2.2] at this
    beta_reduce at this
    rw [(cw.ops 1 _ cw.d1 _).1 i hi 0 0, (cw.ops 1 _ cw.d1 _).2.1 i 0 (by omega) 0, en.1, en.2.1] at this
    unfold Δr Δt cyc at this
    rw [u1 _ (Nat.mod_lt _ (by omega)) 0 (by omega) 0 (by omega), u1 i (by omega) 0 (by omega) 0 (by omega),
      codeRad_congr hi (fun m hm => u1 m hm 0 (by omega) 0 (by omega))] at this
    simp only [mul_one] at this
    apply hfi
    linarith

/-- Divergences. -/
theorem div_sizes (h : Admissible ns ps q types F polar dirichlet D) (hr : types.1 = "clamped") (ht : types.2.1 ≠ "clamped")
    (hz : types.2.2 ≠ "clamped")
    (H : ∀ u i m l, D.S.L3.dims.InRange 0 i m l → extDeriv D.S.L2.dims (coef D.S.L2.dims (D.E2ᵀ *ᵥ u)) 0 i m l
      = codeDeriv D.S.L2.dims (coef D.S.L2.dims (D.E2ᵀ *ᵥ u)) 0 i m l) :
    ns.2.2 ≤ ns.2.1 ∧ (ns.1 = ns.2.1 ∨ (dirichlet = true ∧ (ns.1 ≤ ns.2.1 ∨ ns.2.1 = 1))) := by
  have cw := h.cw hr ht hz
  have i3 := (dk_in ns.1 ns.2.1 ns.2.2).2.2.2.2.2.2.2
  have hN := cw.hN
  have hM := cw.hM
  have hL := cw.hL
  have en : D.S.L2.dims.nr = ns.1 ∧ D.S.L2.dims.nt = ns.2.1 ∧ D.S.L2.dims.nz = ns.2.2 := by rw [cw.d2]; exact ⟨rfl, rfl, rfl⟩
  constructor
  · by_contra hc
    obtain ⟨w, l, hl, hwl⟩ := ax_ne hM (by omega : ns.2.1 < ns.2.2)
    obtain ⟨u, u0, u1, u2⟩ := cw.make2 (P2.profile (M := ns.2.1) (L := ns.2.2) (b1 := fun _ _ _ => 0) hN (zero_mem (F1 polar dirichlet ns.1)) (fun _ _ => 0)
      (fun _ _ _ _ _ => rfl)) (a2 := fun i _ l => (if i = ns.1 - 2 then 1 else 0) * w l) (by
        intro e j hj l hl
        have := cw.hp e
        beta_reduce
        rw [if_neg (by omega), zero_mul])
    have := H u (ns.1 - 2) 0 l (by rw [cw.d3]; exact (i3 _ _ _ _).mpr ⟨rfl, by omega, by omega, hl⟩)
    rw [Seq.ext2 (by rw [cw.d2]; rfl) _, code2 (d := D.S.L2.dims) (by rw [cw.d2]; rfl) _] at this
    beta_reduce at this
    rw [(cw.ops 2 _ cw.d2 _).2.2 (ns.1 - 2) 0 l hl, (cw.ops 2 _ cw.d2 _).1 (ns.1 - 2) (by omega) 0 l,
      (cw.ops 2 _ cw.d2 _).2.1 (ns.1 - 2) 0 (by omega) l, en.1, en.2.1, en.2.2] at this
    unfold Δz Δr Δt cyc at this
    rw [u2 (ns.1 - 2) (by omega) 0 (by omega) _ (Nat.mod_lt _ (by omega)), u2 (ns.1 - 2) (by omega) 0 (by omega) l hl,
      u0 _ (Nat.mod_lt _ (by omega)) 0 (by omega) l hl, u0 (ns.1 - 2) (by omega) 0 (by omega) l hl,
      codeAx_congr hl (fun l hl => u2 (ns.1 - 2) (by omega) 0 (by omega) l hl),
      codeRad_congr (by omega : ns.1 - 2 < ns.1 - 1) (fun m hm => u0 m hm 0 (by omega) l hl), codeAx_smul, if_pos rfl] at this
    simp only [mul_zero, codeRad_zero'] at this
    apply hwl
    linarith
  · by_contra hc
    obtain ⟨f, f0, f1, i, hi, hfi⟩ := rad_ne hN hM cw.hp hc
    obtain ⟨u, u0, u1, u2⟩ := cw.make2 (P2.profile (M := ns.2.1) (L := ns.2.2) (b1 := fun _ _ _ => 0) hN f1 (fun _ _ => 1)
      (fun _ _ _ _ _ => rfl)) (a2 := fun _ _ _ => 0) (fun _ _ _ _ _ => rfl)
    have := H u i 0 0 (by rw [cw.d3]; exact (i3 _ _ _ _).mpr ⟨rfl, hi, by omega, by omega⟩)
    rw [Seq.ext2 (by rw [cw.d2]; rfl) _, code2 (d := D.S.L2.dims) (by rw [cw.d2]; rfl) _] at this
    beta_reduce at this
    rw [(cw.ops 2 _ cw.d2 _).1 i hi 0 0, (cw.ops 2 _ cw.d2 _).2.1 i 0 (by omega) 0, (cw.ops 2 _ cw.d2 _).2.2 i 0 0 (by omega),
      en.1, en.2.1, en.2.2] at this
    unfold Δr Δt Δz cyc at this
    rw [u0 _ (Nat.mod_lt _ (by omega)) 0 (by omega) 0 (by omega), u0 i (by omega) 0 (by omega) 0 (by omega),
      u2 i hi 0 (by omega) _ (Nat.mod_lt _ (by omega)), u2 i hi 0 (by omega) 0 (by omega),
      codeAx_congr (by omega : 0 < ns.2.2) (fun l hl => u2 i hi 0 (by omega) l hl), codeAx_zero',
      codeRad_congr hi (fun m hm => u0 m hm 0 (by omega) 0 (by omega))] at this
    simp only [mul_one] at this
    apply hfi
    linarith

/-- **C76** (exact domain, radially clamped and periodic or constant in the angles) `strong_grad @ u` is the gradient of the discrete function `u`
at all quadrature points, for all `u`, exactly if there are at most as many axial as poloidal splines, and as many radial as poloidal
ones or, with Dirichlet conditions, not more radial than poloidal ones or a single poloidal one. (With Dirichlet conditions and two
radial splines there may be no 0-forms.) -/
theorem C76_gradient_iff (h : Admissible ns ps q types F polar dirichlet D) (hr : types.1 = "clamped") (ht : types.2.1 ≠ "clamped")
    (hz : types.2.2 ≠ "clamped") (h3 : dirichlet = true → 3 ≤ ns.1) :
    (∀ u : Fin D.m0 → ℝ, ∀ x ∈ D.S.Q.x, ∀ dir < 3, HasPartial (fun y => discreteFunction D.S.L0 u D.E0 y 0) dir
      (discreteFunction D.S.L1 (D.strongGrad *ᵥ u) D.E1 x dir) x) ↔
    ns.2.2 ≤ ns.2.1 ∧ (ns.1 = ns.2.1 ∨ (dirichlet = true ∧ (ns.1 ≤ ns.2.1 ∨ ns.2.1 = 1))) := by
  constructor
  swap
  · rintro ⟨a, b⟩ u x hx dir hdir
    exact C76_grad_is_exact h ⟨hr, ht, hz, a, b⟩ u x hx dir hdir
  intro H
  exact grad_sizes h hr ht hz h3 fun u => grad_arrays h hr ht hz u (H u)

/-- Case: the standard case. -/
example (polar dirichlet : Bool) := C76_gradient_iff (Case.adm polar dirichlet) rfl (by decide) (by decide) (by norm_num)

/-- **C76** (exact domain) `strong_curl @ v` is the curl of the discrete 1-form `v` at all quadrature points, for all `v`, for exactly these sizes. -/
theorem C76_curl_iff (h : Admissible ns ps q types F polar dirichlet D) (hr : types.1 = "clamped") (ht : types.2.1 ≠ "clamped")
    (hz : types.2.2 ≠ "clamped") :
    (∀ v : Fin D.m1 → ℝ, ∀ x ∈ D.S.Q.x, ∃ P : Nat → Nat → ℝ,
      (∀ comp < 3, ∀ dir < 3, comp ≠ dir → HasPartial (fun y => discreteFunction D.S.L1 v D.E1 y comp) dir (P comp dir) x) ∧
      discreteFunction D.S.L2 (D.strongCurl *ᵥ v) D.E2 x 0 = P 2 1 - P 1 2 ∧
      discreteFunction D.S.L2 (D.strongCurl *ᵥ v) D.E2 x 1 = P 0 2 - P 2 0 ∧
      discreteFunction D.S.L2 (D.strongCurl *ᵥ v) D.E2 x 2 = P 1 0 - P 0 1) ↔
    ns.2.2 ≤ ns.2.1 ∧ (ns.1 = ns.2.1 ∨ (dirichlet = true ∧ (ns.1 ≤ ns.2.1 ∨ ns.2.1 = 1))) := by
  constructor
  swap
  · rintro ⟨a, b⟩ v x hx
    exact C76_curl_is_exact h ⟨hr, ht, hz, a, b⟩ v x hx
  intro H
  exact curl_sizes h hr ht hz fun u => curl_arrays h hr ht hz u (H u)

/-- Case: the standard case. -/
example (polar dirichlet : Bool) := C76_curl_iff (Case.adm polar dirichlet) rfl (by decide) (by decide)

/-- **C76** (exact domain) `strong_div @ w` is the divergence of the discrete 2-form `w` at all quadrature points, for all `w`, for exactly
these sizes. -/
theorem C76_div_iff (h : Admissible ns ps q types F polar dirichlet D) (hr : types.1 = "clamped") (ht : types.2.1 ≠ "clamped")
    (hz : types.2.2 ≠ "clamped") :
    (∀ w : Fin D.m2 → ℝ, ∀ x ∈ D.S.Q.x,
      ∃ P : Nat → ℝ, (∀ comp < 3, HasPartial (fun y => discreteFunction D.S.L2 w D.E2 y comp) comp (P comp) x) ∧
        discreteFunction D.S.L3 (D.strongDiv *ᵥ w) D.E3 x 0 = P 0 + P 1 + P 2) ↔
    ns.2.2 ≤ ns.2.1 ∧ (ns.1 = ns.2.1 ∨ (dirichlet = true ∧ (ns.1 ≤ ns.2.1 ∨ ns.2.1 = 1))) := by
  constructor
  swap
  · rintro ⟨a, b⟩ w x hx
    exact C76_div_is_exact h ⟨hr, ht, hz, a, b⟩ w x hx
  intro H
  exact div_sizes h hr ht hz fun u => div_arrays h hr ht hz u (H u)

/-- Case: the standard case. -/
example (polar dirichlet : Bool) := C76_div_iff (Case.adm polar dirichlet) rfl (by decide) (by decide)

/-- **C76** (exact domain) the strong operators act on the coefficients as differences of neighbouring ones exactly for these sizes. -/
theorem C76_operators_are_incidence_iff (h : Admissible ns ps q types F polar dirichlet D) (hr : types.1 = "clamped") (ht : types.2.1 ≠ "clamped")
    (hz : types.2.2 ≠ "clamped") :
    ((∀ y c i j l, D.S.L1.dims.InRange c i j l → coef D.S.L1.dims (D.E1ᵀ *ᵥ (D.strongGrad *ᵥ y)) c i j l
      = extDeriv D.S.L0.dims (coef D.S.L0.dims (D.E0ᵀ *ᵥ y)) c i j l) ∧
    (∀ y c i j l, D.S.L2.dims.InRange c i j l → coef D.S.L2.dims (D.E2ᵀ *ᵥ (D.strongCurl *ᵥ y)) c i j l
      = extDeriv D.S.L1.dims (coef D.S.L1.dims (D.E1ᵀ *ᵥ y)) c i j l) ∧
    (∀ y c i j l, D.S.L3.dims.InRange c i j l → coef D.S.L3.dims (D.E3ᵀ *ᵥ (D.strongDiv *ᵥ y)) c i j l
      = extDeriv D.S.L2.dims (coef D.S.L2.dims (D.E2ᵀ *ᵥ y)) c i j l)) ↔
    ns.2.2 ≤ ns.2.1 ∧ (ns.1 = ns.2.1 ∨ (dirichlet = true ∧ (ns.1 ≤ ns.2.1 ∨ ns.2.1 = 1))) := by
  constructor
  · rintro ⟨_, H, _⟩
    exact curl_sizes h hr ht hz fun u c i m l hin => by rw [← H u c i m l hin, (h.complex.curl u).2 c i m l hin]
  · rintro ⟨a, b⟩
    exact C76_operators_are_incidence h ⟨hr, ht, hz, a, b⟩

/-- Case: the standard case. -/
example (polar dirichlet : Bool) := C76_operators_are_incidence_iff (Case.adm polar dirichlet) rfl (by decide) (by decide)

/-! ## C37: lazy derivative matrices -/

/-- True derivatives of extracted arrays are extracted arrays, for all sizes. -/
theorem true_lift (h : Admissible ns ps q types F polar dirichlet D) (hr : types.1 = "clamped") (ht : types.2.1 ≠ "clamped")
    (hz : types.2.2 ≠ "clamped") :
    (∀ y, ∃ w, ∀ c i j l, D.S.L1.dims.InRange c i j l →
      coef D.S.L1.dims (D.E1ᵀ *ᵥ w) c i j l = extDeriv D.S.L0.dims (coef D.S.L0.dims (D.E0ᵀ *ᵥ y)) c i j l) ∧
    (∀ y, ∃ w, ∀ c i j l, D.S.L2.dims.InRange c i j l →
      coef D.S.L2.dims (D.E2ᵀ *ᵥ w) c i j l = extDeriv D.S.L1.dims (coef D.S.L1.dims (D.E1ᵀ *ᵥ y)) c i j l) ∧
    (∀ y, ∃ w, ∀ c i j l, D.S.L3.dims.InRange c i j l →
      coef D.S.L3.dims (D.E3ᵀ *ᵥ w) c i j l = extDeriv D.S.L2.dims (coef D.S.L2.dims (D.E2ᵀ *ᵥ y)) c i j l) := by
  have hd := h.dims0
  have hps := h.polarSettings
  have hw := h.quad.wf
  have d1 := (Seq.nr_eq hw).1
  have d2 := (Seq.nr_eq hw).2.1
  have d3 := (Seq.nr_eq hw).2.2
  have edr : D.S.L0.dims.dr ≤ D.S.L0.dims.nr := by rw [hd]; simp [Form.dsize, hr]
  have edt : D.S.L0.dims.dt ≤ D.S.L0.dims.nt := by rw [hd]; simp [Form.dsize, ht]
  have edz : D.S.L0.dims.dz ≤ D.S.L0.dims.nz := by rw [hd]; simp [Form.dsize, hz]
  obtain ⟨S, hS, ⟨hp, rfl⟩ | ⟨hp, rfl⟩⟩ := Admissible.cases' h.built
  · obtain ⟨p0, p1, p2, p3⟩ := hps hp
    exact ⟨fun y => C30_polar_complex 0 (by simp) ns ps _ S.L0 S.L1 p0 p1 dirichlet y,
      fun y => C30_polar_complex 1 (by simp) ns ps _ S.L1 S.L2 p1 p2 dirichlet y,
      fun y => C30_polar_complex 2 (by simp) ns ps _ S.L2 S.L3 p2 p3 dirichlet y⟩
  · have w0 : withDegree S.L0.dims 0 = S.L0.dims := by rw [show S.L0.dims = _ from hd]; rfl
    have w1 : withDegree S.L0.dims 1 = S.L1.dims := by rw [show S.L1.dims = _ from d1]; rfl
    have w2 : withDegree S.L0.dims 2 = S.L2.dims := by rw [show S.L2.dims = _ from d2]; rfl
    have w3 : withDegree S.L0.dims 3 = S.L3.dims := by rw [show S.L3.dims = _ from d3]; rfl
    have b0 := C30_boundary_complex S.L0.dims 0 (by simp) (DeRham.bcTypes dirichlet) edr edt edz
    have b1 := C30_boundary_complex S.L0.dims 1 (by simp) (DeRham.bcTypes dirichlet) edr edt edz
    have b2 := C30_boundary_complex S.L0.dims 2 (by simp) (DeRham.bcTypes dirichlet) edr edt edz
    rw [show (0 : Int) + 1 = 1 by norm_num, w0, w1] at b0
    rw [show (1 : Int) + 1 = 2 by norm_num, w1, w2] at b1
    rw [show (2 : Int) + 1 = 3 by norm_num, w2, w3] at b2
    exact ⟨b0, b1, b2⟩

/-- If two matrices assembled against the same mass matrix agree, so do the coefficients of the fields they integrate. -/
theorem lift_unique {nA nB m mA d nq : Nat} (gA gA' gB : Getter) (W : Nat → Matrix (Fin d) (Fin d) ℝ)
    (E : Matrix (Fin m) (Fin nB) ℝ) (EA : Matrix (Fin mA) (Fin nA) ℝ)
    (hM : SPD (E * assemble gB gB nq d W nB nB * Eᵀ))
    (e : E * assemble gB gA nq d W nB nA * EAᵀ = E * assemble gB gA' nq d W nB nA * EAᵀ) (y : Fin mA → ℝ) (w w' : Fin m → ℝ)
    (hf : ∀ j < nq, ∀ k < d, evaluateAtXq gA (EAᵀ *ᵥ y) j k = evaluateAtXq gB (Eᵀ *ᵥ w) j k)
    (hf' : ∀ j < nq, ∀ k < d, evaluateAtXq gA' (EAᵀ *ᵥ y) j k = evaluateAtXq gB (Eᵀ *ᵥ w') j k) : w = w' := by
  rw [← solve_lift gA gB W E EA hM y w hf, ← solve_lift gA' gB W E EA hM y w' hf', e]

theorem trueGrad_values (h : Admissible ns ps q types F polar dirichlet D) (hR : Resolved ns ps q types.2.1 types.2.2 D.S) {j : Nat} (hj : j < D.nq)
    (i : Fin D.S.L0.dims.n) (k : Fin 3) : D.S.trueGrad i j k = gradForm D.S.L0 i (D.S.point j) k := by
  have hx := h.getElem hj
  rw [← trueGrad_eq hR.standard j _ hx i i.2 k k.2]
  exact (jac_of (gradP_spec hR.standard j _ hx i i.2 k k.2)).symm

theorem trueCurl_values (h : Admissible ns ps q types F polar dirichlet D) (hR : Resolved ns ps q types.2.1 types.2.2 D.S) {j : Nat} (hj : j < D.nq)
    (i : Fin D.S.L1.dims.n) (k : Fin 3) : D.S.trueCurl i j k = curlForm D.S.L1 i (D.S.point j) k := by
  have hx := h.getElem hj
  obtain ⟨c0, c1, c2⟩ := trueCurl_eq hR.standard j _ hx i i.2
  have a := curlP_spec hR.standard j _ hx i i.2
  generalize curlP D.S (D.S.point j) (D.S.L1.dims.unravelIndex i) j = P at *
  have e : ∀ comp < 3, ∀ dir < 3, comp ≠ dir → jacfwdForm D.S.L1 i (D.S.point j) comp dir = P comp dir :=
    fun comp h1 dir h2 h3 => jac_of (a comp h1 dir h2 h3)
  have v0 : (curlForm D.S.L1 i (D.S.point j)) 0 = P 2 1 - P 1 2 := by
    rw [← e 2 (by omega) 1 (by omega) (by omega), ← e 1 (by omega) 2 (by omega) (by omega)]; rfl
  have v1 : (curlForm D.S.L1 i (D.S.point j)) 1 = P 0 2 - P 2 0 := by
    rw [← e 2 (by omega) 0 (by omega) (by omega), ← e 0 (by omega) 2 (by omega) (by omega)]; rfl
  have v2 : (curlForm D.S.L1 i (D.S.point j)) 2 = P 1 0 - P 0 1 := by
    rw [← e 1 (by omega) 0 (by omega) (by omega), ← e 0 (by omega) 1 (by omega) (by omega)]; rfl
  match k with
  | 0 => rw [v0]; exact c0
  | 1 => rw [v1]; exact c1
  | 2 => rw [v2]; exact c2

theorem trueDiv_values (h : Admissible ns ps q types F polar dirichlet D) (hR : Resolved ns ps q types.2.1 types.2.2 D.S) {j : Nat} (hj : j < D.nq)
    (i : Fin D.S.L2.dims.n) (k : Fin 1) : D.S.trueDiv i j k = divForm D.S.L2 i (D.S.point j) k := by
  have hx := h.getElem hj
  have a := divP_spec hR.standard j _ hx i i.2
  rw [trueDiv_eq hR.standard j _ hx i i.2]
  unfold divForm
  rw [jac_of (a 0 (by omega)), jac_of (a 1 (by omega)), jac_of (a 2 (by omega))]; ring

/-- **C37** (exact domain, Jacobian at least `1e-5`, radially clamped, periodic or constant in the angles) the matrix of `LazyDerivativeMatrix` is the
matrix assembled by the sequence, for gradients, for curls, for divergences, exactly if the tables of C20 are right on the extracted
space, that is for the sizes of C76. -/
theorem C37_lazy_derivative_iff (h : Admissible ns ps q types F polar dirichlet D) (hr : types.1 = "clamped") (ht : types.2.1 ≠ "clamped")
    (hz : types.2.2 ≠ "clamped") :
    ((dirichlet = true → 3 ≤ ns.1) → (lazyMatrix (lazyGradient D.S.Q F D.S.L0 D.S.L1) D.E0 D.E1 = D.D0 ↔
      ns.2.2 ≤ ns.2.1 ∧ (ns.1 = ns.2.1 ∨ (dirichlet = true ∧ (ns.1 ≤ ns.2.1 ∨ ns.2.1 = 1))))) ∧
    (lazyMatrix (lazyCurl D.S.Q F D.S.L1 D.S.L2) D.E1 D.E2 = D.D1 ↔
      ns.2.2 ≤ ns.2.1 ∧ (ns.1 = ns.2.1 ∨ (dirichlet = true ∧ (ns.1 ≤ ns.2.1 ∨ ns.2.1 = 1)))) ∧
    (lazyMatrix (lazyDiv D.S.Q F D.S.L2 D.S.L3) D.E2 D.E3 = D.D2 ↔
      ns.2.2 ≤ ns.2.1 ∧ (ns.1 = ns.2.1 ∨ (dirichlet = true ∧ (ns.1 ≤ ns.2.1 ∨ ns.2.1 = 1)))) := by
  have hR := standard_of' h hr ht hz
  obtain ⟨hw, _, hd, hlen, er, et, ez⟩ := hR.standard.facts
  obtain ⟨l0, l1, l2⟩ := true_lift h hr ht hz
  obtain ⟨m0, m1, m2, m3⟩ := C31_mass_matrices_definite h
  refine ⟨fun h3 => ⟨fun e => ?_, fun a => (C37_lazy_derivative_regular h ⟨hr, ht, hz, a.1, a.2⟩).1⟩,
    ⟨fun e => ?_, fun a => (C37_lazy_derivative_regular h ⟨hr, ht, hz, a.1, a.2⟩).2.1⟩,
    ⟨fun e => ?_, fun a => (C37_lazy_derivative_regular h ⟨hr, ht, hz, a.1, a.2⟩).2.2⟩⟩
  · have t : lazyMatrix (lazyGradient D.S.Q F D.S.L0 D.S.L1) D.E0 D.E1 = _ := lazy_eq D _ _ _ _ D.S.trueGrad D.S.getLambda1 D.W1 D.E0 D.E1
      (fun j hj => (lazy_weights h hj).2.1) (fun j hj u i => Or.inr (trueGrad_values h hR hj i)) (fun j hj u i => Or.inr ((lazy_values h hj).2.1 i))
    rw [t] at e
    refine grad_sizes h hr ht hz h3 fun u c i m l hin => ?_
    obtain ⟨w, hw'⟩ := l0 u
    rw [← hw' c i m l hin, ← (h.complex.grad u).2 c i m l hin]
    rw [lift_unique D.S.trueGrad D.S.getDLambda0 D.S.getLambda1 D.W1 D.E1 D.E0 m1 e u w (D.strongGrad *ᵥ u) (fun j hj k hk => ?_)
      (fun j hj k hk => (h.complex.grad u).1 j k hk)]
    rw [Seq.tfield0 hd.dr hd.dt hd.dz hw _ j k hk, Seq.field1 hw _ j k hk]
    exact Seq.compVal_congr _ _ _ _ fun i m l hin => (hw' k i m l hin).symm
  · have t : lazyMatrix (lazyCurl D.S.Q F D.S.L1 D.S.L2) D.E1 D.E2 = _ := lazy_eq D _ _ _ _ D.S.trueCurl D.S.getLambda2 D.W2 D.E1 D.E2
      (fun j hj => (lazy_weights h hj).2.2.1) (fun j hj u i => Or.inr (trueCurl_values h hR hj i)) (fun j hj u i => Or.inr ((lazy_values h hj).2.2.1 i))
    rw [t] at e
    refine curl_sizes h hr ht hz fun u c i m l hin => ?_
    obtain ⟨w, hw'⟩ := l1 u
    rw [← hw' c i m l hin, ← (h.complex.curl u).2 c i m l hin]
    rw [lift_unique D.S.trueCurl D.S.getDLambda1 D.S.getLambda2 D.W2 D.E2 D.E1 m2 e u w (D.strongCurl *ᵥ u) (fun j hj k hk => ?_)
      (fun j hj k hk => (h.complex.curl u).1 j k hk)]
    rw [Seq.tfield1 hd.dr hd.dt hd.dz hw _ j k hk, Seq.field2 hw _ j k hk]
    exact Seq.compVal_congr _ _ _ _ fun i m l hin => (hw' k i m l hin).symm
  · have t : lazyMatrix (lazyDiv D.S.Q F D.S.L2 D.S.L3) D.E2 D.E3 = _ := lazy_eq_one D _ _ _ D.S.trueDiv D.S.getLambda3 D.W3 D.E2 D.E3
      (fun j hj => (lazy_weights h hj).2.2.2) (fun j hj u i => Or.inr (trueDiv_values h hR hj i)) (fun j hj u i => Or.inr ((lazy_values h hj).2.2.2 i))
    rw [t] at e
    refine div_sizes h hr ht hz fun u i m l hin => ?_
    obtain ⟨w, hw'⟩ := l2 u
    rw [← hw' 0 i m l hin, ← (h.complex.div u).2 0 i m l hin]
    rw [lift_unique D.S.trueDiv D.S.getDLambda2 D.S.getLambda3 D.W3 D.E3 D.E2 m3 e u w (D.strongDiv *ᵥ u) (fun j hj k hk => ?_)
      (fun j hj k hk => (h.complex.div u).1 j k)]
    rw [Seq.tfield2 hd.dr hd.dt hd.dz hw _ j k, Seq.field3' hw _ j k]
    exact Seq.compVal_congr _ _ _ _ fun i m l hin => (hw' 0 i m l hin).symm

/-- non-vacuity: sequences on both sides of the characterisation. -/
example : (∃ D, Admissible (6, 6, 4) (3, 2, 1) 4 ("clamped", "periodic", "periodic") (fun y => y) true false D) ∧
    ∃ D, Admissible (5, 6, 8) (3, 2, 1) 4 ("clamped", "periodic", "periodic") (fun y => y) true true D := by
  constructor
  · exact Admissible.exists (fun y => y) true false (by norm_num) (by unfold DirOK; norm_num) (by unfold DirOK; norm_num) (by unfold DirOK; norm_num)
      (by simp) fun x => by rw [jacobianDeterminant_id]; norm_num
  · exact Admissible.exists (fun y => y) true true (by norm_num) (by unfold DirOK; norm_num) (by unfold DirOK; norm_num) (by unfold DirOK; norm_num)
      (by simp) fun x => by rw [jacobianDeterminant_id]; norm_num

end

end Props
end Mrx
