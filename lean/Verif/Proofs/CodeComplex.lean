import Verif.Proofs.Setting

/-!
# The complex the code builds, for all sizes and basis types

The getters of the exterior derivatives replace the derivative of a spline by a difference of derivative splines.
Whatever that difference is (it is the right one only for some sizes, see C20), the same one-dimensional operator is
used in all three getters, so that the resulting operators still form a complex.
-/

set_option linter.unusedSectionVars false
set_option linter.unusedSimpArgs false

namespace Mrx
open Finset Jax Spec Matrix Quad Props

/-- Coefficient of derivative spline `m` in what the getters use as the radial derivative of spline `i`. -/
def δr (d : Dims) (m i : Nat) : ℝ :=
  (if 0 < i ∧ m = min (i - 1) (d.dr - 1) then 1 else 0) - (if ¬ (i : Int) = (d.nt : Int) - 1 ∧ m = min i (d.dr - 1) then 1 else 0)
/-- The same, poloidal. -/
def δt (d : Dims) (m i : Nat) : ℝ :=
  (if m = min (if 0 < i then i - 1 else d.nt - 1) (d.dt - 1) then 1 else 0) - (if m = min i (d.dt - 1) then 1 else 0)
/-- The same, axial. -/
def δz (d : Dims) (m i : Nat) : ℝ :=
  (if m = min (if 0 < i then i - 1 else d.nt - 1) (d.dz - 1) then 1 else 0) - (if m = min i (d.dz - 1) then 1 else 0)

/-- The operators on coefficient arrays. -/
def dR (d : Dims) (C : Nat → Nat → Nat → ℝ) (i j l : Nat) : ℝ := ∑ m ∈ range d.nr, δr d i m * C m j l
def dT (d : Dims) (C : Nat → Nat → Nat → ℝ) (i j l : Nat) : ℝ := ∑ m ∈ range d.nt, δt d j m * C i m l
def dZ (d : Dims) (C : Nat → Nat → Nat → ℝ) (i j l : Nat) : ℝ := ∑ m ∈ range d.nz, δz d l m * C i j m

/-- Gradient, curl, divergence built from these operators. -/
def codeDeriv (d : Dims) (V : Nat → Nat → Nat → Nat → ℝ) (c : Nat) : Nat → Nat → Nat → ℝ := fun i j l =>
  if d.k = 0 then
    if c = 0 then dR d (V 0) i j l else if c = 1 then dT d (V 0) i j l else dZ d (V 0) i j l
  else if d.k = 1 then
    if c = 0 then dT d (V 2) i j l - dZ d (V 1) i j l
    else if c = 1 then dZ d (V 0) i j l - dR d (V 2) i j l
    else dR d (V 1) i j l - dT d (V 0) i j l
  else dR d (V 0) i j l + dT d (V 1) i j l + dZ d (V 2) i j l

theorem code0 {d : Dims} (h : d.k = 0) (V : Nat → Nat → Nat → Nat → ℝ) :
    codeDeriv d V 0 = dR d (V 0) ∧ codeDeriv d V 1 = dT d (V 0) ∧ codeDeriv d V 2 = dZ d (V 0) := by
  refine ⟨?_, ?_, ?_⟩ <;> funext i j l <;> simp [codeDeriv, h]

theorem code1 {d : Dims} (h : d.k = 1) (V : Nat → Nat → Nat → Nat → ℝ) :
    codeDeriv d V 0 = (fun i j l => dT d (V 2) i j l - dZ d (V 1) i j l) ∧
    codeDeriv d V 1 = (fun i j l => dZ d (V 0) i j l - dR d (V 2) i j l) ∧
    codeDeriv d V 2 = (fun i j l => dR d (V 1) i j l - dT d (V 0) i j l) := by
  refine ⟨?_, ?_, ?_⟩ <;> funext i j l <;> simp [codeDeriv, h]

theorem code2 {d : Dims} (h : d.k = 2) (V : Nat → Nat → Nat → Nat → ℝ) (c : Nat) :
    codeDeriv d V c = (fun i j l => dR d (V 0) i j l + dT d (V 1) i j l + dZ d (V 2) i j l) := by
  funext i j l; simp [codeDeriv, h]

namespace Seq
variable {S : Seq ℝ} (hw : S.WF)
include hw

theorem getR (h1 : 1 ≤ S.L0.dims.dr) (k j : Nat) :
    S.dlamR.get k j = ∑ m ∈ range S.L0.dims.dr, (if m = min k (S.L0.dims.dr - 1) then 1 else 0) * S.dlamR.get m j := by
  simp only [ite_mul, one_mul, zero_mul]
  rw [Finset.sum_ite_eq', if_pos (by rw [mem_range]; omega)]
  unfold dlamR Table.get
  simp only [hw.f0.dr]
  rw [show min (min k (S.L0.dims.dr - 1)) (S.L0.dims.dr - 1) = min k (S.L0.dims.dr - 1) by omega]

theorem getT (h1 : 1 ≤ S.L0.dims.dt) (k j : Nat) :
    S.dlamT.get k j = ∑ m ∈ range S.L0.dims.dt, (if m = min k (S.L0.dims.dt - 1) then 1 else 0) * S.dlamT.get m j := by
  simp only [ite_mul, one_mul, zero_mul]
  rw [Finset.sum_ite_eq', if_pos (by rw [mem_range]; omega)]
  unfold dlamT Table.get
  simp only [hw.f0.dt]
  rw [show min (min k (S.L0.dims.dt - 1)) (S.L0.dims.dt - 1) = min k (S.L0.dims.dt - 1) by omega]

theorem getZ (h1 : 1 ≤ S.L0.dims.dz) (k j : Nat) :
    S.dlamZ.get k j = ∑ m ∈ range S.L0.dims.dz, (if m = min k (S.L0.dims.dz - 1) then 1 else 0) * S.dlamZ.get m j := by
  simp only [ite_mul, one_mul, zero_mul]
  rw [Finset.sum_ite_eq', if_pos (by rw [mem_range]; omega)]
  unfold dlamZ Table.get
  simp only [hw.f0.dz]
  rw [show min (min k (S.L0.dims.dz - 1)) (S.L0.dims.dz - 1) = min k (S.L0.dims.dz - 1) by omega]

theorem diffR_code (h1 : 1 ≤ S.L0.dims.dr) (i j : Nat) :
    S.diffR S.L0.dims.nt i j = ∑ m ∈ range S.L0.dims.dr, δr S.L0.dims m i * S.dlamR.get m j := by
  unfold diffR δr
  simp only [sub_mul, Finset.sum_sub_distrib]
  congr 1
  · by_cases h : 0 < i
    · simp only [h, if_true, true_and]; exact getR hw h1 _ _
    · simp [h]
  · by_cases h : (i : Int) = (S.L0.dims.nt : Int) - 1
    · simp [h]
    · simp only [h, if_false, not_false_eq_true, true_and]; exact getR hw h1 _ _

theorem diffT_code (h1 : 1 ≤ S.L0.dims.dt) (i j : Nat) :
    S.diffT S.L0.dims.nt i j = ∑ m ∈ range S.L0.dims.dt, δt S.L0.dims m i * S.dlamT.get m j := by
  unfold diffT δt
  simp only [sub_mul, Finset.sum_sub_distrib]
  congr 1
  · by_cases h : 0 < i
    · simp only [h, if_true]; exact getT hw h1 _ _
    · simp only [h, if_false]; exact getT hw h1 _ _
  · exact getT hw h1 _ _

theorem diffZ_code (h1 : 1 ≤ S.L0.dims.dz) (i j : Nat) :
    S.diffZ S.L0.dims.nt i j = ∑ m ∈ range S.L0.dims.dz, δz S.L0.dims m i * S.dlamZ.get m j := by
  unfold diffZ δz
  simp only [sub_mul, Finset.sum_sub_distrib]
  congr 1
  · by_cases h : 0 < i
    · simp only [h, if_true]; exact getZ hw h1 _ _
    · simp only [h, if_false]; exact getZ hw h1 _ _
  · exact getZ hw h1 _ _

omit hw in
theorem swap_sum (n m : Nat) (f : Nat → ℝ) (δ : Nat → Nat → ℝ) (g : Nat → ℝ) :
    ∑ i ∈ range n, f i * ∑ k ∈ range m, δ k i * g k = ∑ k ∈ range m, (∑ i ∈ range n, δ k i * f i) * g k := by
  simp only [Finset.mul_sum, Finset.sum_mul]
  rw [Finset.sum_comm]
  exact Finset.sum_congr rfl fun i _ => Finset.sum_congr rfl fun k _ => by ring

theorem T3_codeR (h1 : 1 ≤ S.L0.dims.dr) (b c : Nat) (C : Nat → Nat → Nat → ℝ) (v w : Nat → ℝ) (q : Nat) :
    T3 S.L0.dims.nr b c C (fun i => S.diffR S.L0.dims.nt i q) v w
      = T3 S.L0.dims.dr b c (dR S.L0.dims C) (fun i => S.dlamR.get i q) v w := by
  rw [T3_r, T3_r]
  refine Finset.sum_congr rfl fun j hj => Finset.sum_congr rfl fun l hl => ?_
  congr 1
  simp only [diffR_code hw h1]
  exact swap_sum _ _ (fun i => C i j l) _ _

theorem T3_codeT (h1 : 1 ≤ S.L0.dims.dt) (a c : Nat) (C : Nat → Nat → Nat → ℝ) (u w : Nat → ℝ) (q : Nat) :
    T3 a S.L0.dims.nt c C u (fun i => S.diffT S.L0.dims.nt i q) w
      = T3 a S.L0.dims.dt c (dT S.L0.dims C) u (fun i => S.dlamT.get i q) w := by
  rw [T3_t, T3_t]
  refine Finset.sum_congr rfl fun j hj => Finset.sum_congr rfl fun l hl => ?_
  congr 1
  simp only [diffT_code hw h1]
  exact swap_sum _ _ (fun i => C j i l) _ _

theorem T3_codeZ (h1 : 1 ≤ S.L0.dims.dz) (a b : Nat) (C : Nat → Nat → Nat → ℝ) (u v : Nat → ℝ) (q : Nat) :
    T3 a b S.L0.dims.nz C u v (fun i => S.diffZ S.L0.dims.nt i q)
      = T3 a b S.L0.dims.dz (dZ S.L0.dims C) u v (fun i => S.dlamZ.get i q) := by
  rw [T3_z, T3_z]
  refine Finset.sum_congr rfl fun j hj => Finset.sum_congr rfl fun l hl => ?_
  congr 1
  simp only [diffZ_code hw h1]
  exact swap_sum _ _ (fun i => C j l i) _ _

/-- The spaces of derivative splines are not empty. -/
structure NonEmpty (S : Seq ℝ) : Prop where
  r : 1 ≤ S.L0.dims.dr
  t : 1 ≤ S.L0.dims.dt
  z : 1 ≤ S.L0.dims.dz

variable (hd : S.NonEmpty)
include hd

/-- Gradient. -/
theorem cfield0 (v : Fin S.L0.dims.n → ℝ) (j k : Nat) (hk : k < 3) :
    evaluateAtXq S.getDLambda0 v j k = S.compVal S.L1.dims (codeDeriv S.L0.dims (coef S.L0.dims v) k) k j := by
  have hd1 := (nr_eq hw).1
  unfold evaluateAtXq
  have s0 : S.L0.dims.cshape 0 = (S.L0.dims.nr, S.L0.dims.nt, S.L0.dims.nz) := by simp [Dims.cshape, Dims.shape, hw.k0]
  have s1 : S.L0.dims.cshape 1 = (0, 0, 0) := by simp [Dims.cshape, Dims.shape, hw.k0]
  have s2 : S.L0.dims.cshape 2 = (0, 0, 0) := by simp [Dims.cshape, Dims.shape, hw.k0]
  rw [field_vec _ hw.f0.k v (fun a => S.getDLambda0 a j k) (fun c => if c = 0 then 1 else 0)
    (fun _ i => if k = 0 then S.diffR S.L0.dims.nt i (S.unravelQuad j).1 else S.lamR.get i (S.unravelQuad j).1)
    (fun _ i => if k = 1 then S.diffT S.L0.dims.nt i (S.unravelQuad j).2.1 else S.lamT.get i (S.unravelQuad j).2.1)
    (fun _ i => if k = 2 then S.diffZ S.L0.dims.nt i (S.unravelQuad j).2.2 else S.lamZ.get i (S.unravelQuad j).2.2)]
  · rw [s0, if_pos rfl, if_neg (by decide), if_neg (by decide), one_mul, zero_mul, zero_mul, add_zero, add_zero]
    unfold compVal
    rw [hd1]
    obtain ⟨e0, e1, e2⟩ := code0 hw.k0 (coef S.L0.dims v)
    interval_cases k
    · rw [e0]
      simp only [if_true, show ¬ (0 = 1) by decide, show ¬ (0 = 2) by decide, if_false]
      rw [T3_codeR hw hd.r]
      rfl
    · rw [e1]
      simp only [if_true, show ¬ (1 = 0) by decide, show ¬ (1 = 2) by decide, if_false]
      rw [T3_codeT hw hd.t]
      rfl
    · rw [e2]
      simp only [if_true, show ¬ (2 = 0) by decide, show ¬ (2 = 1) by decide, if_false]
      rw [T3_codeZ hw hd.z]
      rfl
  · intro c i1 i2 i3 hc hin
    unfold getDLambda0
    rw [Dims.unravelIndex_ravelIndex _ hw.f0.k hin]
    have hcl := hin.comp_lt
    simp [Dims.shape, hw.k0] at hcl
    subst hcl
    interval_cases k <;> simp

omit hw hd in
theorem d_eq_of {d d' : Dims} (h : d' = { d with k := d'.k }) : dR d' = dR d ∧ dT d' = dT d ∧ dZ d' = dZ d := by
  rw [h]
  exact ⟨rfl, rfl, rfl⟩

/-- Curl. -/
theorem cfield1 (v : Fin S.L1.dims.n → ℝ) (j k : Nat) (hk : k < 3) :
    evaluateAtXq S.getDLambda1 v j k = S.compVal S.L2.dims (codeDeriv S.L1.dims (coef S.L1.dims v) k) k j := by
  have hd1 := (nr_eq hw).1
  have hd2 := (nr_eq hw).2.1
  have knt : S.L1.dims.nt = S.L0.dims.nt := by rw [hd1]
  have hk1 : S.L1.dims.k = 1 := by rw [hd1]
  unfold evaluateAtXq
  have s0 : S.L1.dims.cshape 0 = (S.L0.dims.dr, S.L0.dims.nt, S.L0.dims.nz) := by simp [Dims.cshape, Dims.shape, hd1]
  have s1 : S.L1.dims.cshape 1 = (S.L0.dims.nr, S.L0.dims.dt, S.L0.dims.nz) := by simp [Dims.cshape, Dims.shape, hd1]
  have s2 : S.L1.dims.cshape 2 = (S.L0.dims.nr, S.L0.dims.nt, S.L0.dims.dz) := by simp [Dims.cshape, Dims.shape, hd1]
  have t0 : S.L2.dims.cshape 0 = (S.L0.dims.nr, S.L0.dims.dt, S.L0.dims.dz) := by simp [Dims.cshape, Dims.shape, hd2]
  have t1 : S.L2.dims.cshape 1 = (S.L0.dims.dr, S.L0.dims.nt, S.L0.dims.dz) := by simp [Dims.cshape, Dims.shape, hd2]
  have t2 : S.L2.dims.cshape 2 = (S.L0.dims.dr, S.L0.dims.dt, S.L0.dims.nz) := by simp [Dims.cshape, Dims.shape, hd2]
  have hk2 : S.L2.dims.k = 2 := by rw [hd2]
  obtain ⟨e0, e1, e2⟩ := code1 hk1 (coef S.L1.dims v)
  obtain ⟨f0, f1, f2⟩ := d_eq_of (d := S.L0.dims) (d' := S.L1.dims) (by rw [hd1])
  rw [f1, f2] at e0; rw [f0, f2] at e1; rw [f0, f1] at e2
  rw [field_vec _ hw.f1.k v (fun a => S.getDLambda1 a j k)
    (fun c => if c = k then 0 else if (c + 1) % 3 = k then 1 else -1)
    (fun c i => if c ≠ 0 ∧ k ≠ 0 ∧ c ≠ k then S.diffR S.L0.dims.nt i (S.unravelQuad j).1
      else if c = 0 then S.dlamR.get i (S.unravelQuad j).1 else S.lamR.get i (S.unravelQuad j).1)
    (fun c i => if c ≠ 1 ∧ k ≠ 1 ∧ c ≠ k then S.diffT S.L0.dims.nt i (S.unravelQuad j).2.1
      else if c = 1 then S.dlamT.get i (S.unravelQuad j).2.1 else S.lamT.get i (S.unravelQuad j).2.1)
    (fun c i => if c ≠ 2 ∧ k ≠ 2 ∧ c ≠ k then S.diffZ S.L0.dims.nt i (S.unravelQuad j).2.2
      else if c = 2 then S.dlamZ.get i (S.unravelQuad j).2.2 else S.lamZ.get i (S.unravelQuad j).2.2)]
  · rw [s0, s1, s2]
    unfold compVal
    rw [hk2]
    have d01 : ¬ ((0:Nat) = 1) := by decide
    have d02 : ¬ ((0:Nat) = 2) := by decide
    have d10 : ¬ ((1:Nat) = 0) := by decide
    have d20 : ¬ ((2:Nat) = 0) := by decide
    have d12 : ¬ ((1:Nat) = 2) := by decide
    have d21 : ¬ ((2:Nat) = 1) := by decide
    have m0 : (0 + 1) % 3 = 1 := by decide
    have m1 : (1 + 1) % 3 = 2 := by decide
    have m2 : (2 + 1) % 3 = 0 := by decide
    interval_cases k
    · rw [e0, t0, T3_sub]
      simp only [d01, d02, d10, d20, d12, d21, m0, m1, m2, if_true, if_false, ne_eq, not_true_eq_false, not_false_eq_true,
        and_true, and_false, and_self, zero_mul, one_mul, neg_one_mul, zero_add]
      rw [T3_codeT hw hd.t, T3_codeZ hw hd.z]
      exact (add_comm _ _).trans (sub_eq_add_neg _ _).symm
    · rw [e1, t1, T3_sub]
      simp only [d01, d02, d10, d20, d12, d21, m0, m1, m2, if_true, if_false, ne_eq, not_true_eq_false, not_false_eq_true,
        and_true, and_false, and_self, zero_mul, one_mul, neg_one_mul, zero_add, add_zero]
      rw [T3_codeR hw hd.r, T3_codeZ hw hd.z]
      exact (sub_eq_add_neg _ _).symm
    · rw [e2, t2, T3_sub]
      simp only [d01, d02, d10, d20, d12, d21, m0, m1, m2, if_true, if_false, ne_eq, not_true_eq_false, not_false_eq_true,
        and_true, and_false, and_self, zero_mul, one_mul, neg_one_mul, zero_add, add_zero]
      rw [T3_codeR hw hd.r, T3_codeT hw hd.t]
      exact (add_comm _ _).trans (sub_eq_add_neg _ _).symm
  · intro c i1 i2 i3 hc hin
    unfold getDLambda1
    rw [Dims.unravelIndex_ravelIndex _ hw.f1.k hin]
    interval_cases c <;> interval_cases k <;> simp [knt]

/-- Divergence. -/
theorem cfield2 (v : Fin S.L2.dims.n → ℝ) (j k : Nat) :
    evaluateAtXq S.getDLambda2 v j k = S.compVal S.L3.dims (codeDeriv S.L2.dims (coef S.L2.dims v) 0) 0 j := by
  have hd2 := (nr_eq hw).2.1
  have hd3 := (nr_eq hw).2.2
  have knt : S.L2.dims.nt = S.L0.dims.nt := by rw [hd2]
  have hk2 : S.L2.dims.k = 2 := by rw [hd2]
  unfold evaluateAtXq
  have t0 : S.L2.dims.cshape 0 = (S.L0.dims.nr, S.L0.dims.dt, S.L0.dims.dz) := by simp [Dims.cshape, Dims.shape, hd2]
  have t1 : S.L2.dims.cshape 1 = (S.L0.dims.dr, S.L0.dims.nt, S.L0.dims.dz) := by simp [Dims.cshape, Dims.shape, hd2]
  have t2 : S.L2.dims.cshape 2 = (S.L0.dims.dr, S.L0.dims.dt, S.L0.dims.nz) := by simp [Dims.cshape, Dims.shape, hd2]
  have u0 : S.L3.dims.cshape 0 = (S.L0.dims.dr, S.L0.dims.dt, S.L0.dims.dz) := by simp [Dims.cshape, Dims.shape, hd3]
  have hk3 : S.L3.dims.k = 3 := by rw [hd3]
  obtain ⟨f0, f1, f2⟩ := d_eq_of (d := S.L0.dims) (d' := S.L2.dims) (by rw [hd2])
  rw [field_vec _ hw.f2.k v (fun a => S.getDLambda2 a j k) (fun _ => 1)
    (fun c i => if c = 0 then S.diffR S.L0.dims.nt i (S.unravelQuad j).1 else S.dlamR.get i (S.unravelQuad j).1)
    (fun c i => if c = 1 then S.diffT S.L0.dims.nt i (S.unravelQuad j).2.1 else S.dlamT.get i (S.unravelQuad j).2.1)
    (fun c i => if c = 2 then S.diffZ S.L0.dims.nt i (S.unravelQuad j).2.2 else S.dlamZ.get i (S.unravelQuad j).2.2)]
  · rw [code2 hk2, t0, t1, t2]
    unfold compVal
    rw [hk3, u0]
    have d01 : ¬ ((0:Nat) = 1) := by decide
    have d02 : ¬ ((0:Nat) = 2) := by decide
    have d10 : ¬ ((1:Nat) = 0) := by decide
    have d20 : ¬ ((2:Nat) = 0) := by decide
    have d12 : ¬ ((1:Nat) = 2) := by decide
    have d21 : ¬ ((2:Nat) = 1) := by decide
    simp only [d01, d02, d10, d20, d12, d21, if_true, if_false, one_mul]
    rw [T3_codeR hw hd.r, T3_codeT hw hd.t, T3_codeZ hw hd.z, T3_add, T3_add, f0, f1, f2]
    rfl
  · intro c i1 i2 i3 hc hin
    unfold getDLambda2
    rw [Dims.unravelIndex_ravelIndex _ hw.f2.k hin]
    interval_cases c <;> simp [knt]

end Seq
end Mrx
