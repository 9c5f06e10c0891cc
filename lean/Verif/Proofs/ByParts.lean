import Verif.Proofs.FieldSums

/-! # Integration by parts with a tensor-product quadrature rule -/

set_option linter.unusedSectionVars false
set_option linter.unusedVariables false

namespace Mrx
open Finset Jax Spec Matrix

/-- Sum of absolute coefficients. -/
noncomputable def size3 (a b c : Nat) (C : Nat → Nat → Nat → ℝ) : ℝ :=
  ∑ i ∈ range a, ∑ j ∈ range b, ∑ l ∈ range c, |C i j l|

theorem size3_nonneg (a b c : Nat) (C : Nat → Nat → Nat → ℝ) : 0 ≤ size3 a b c C :=
  Finset.sum_nonneg fun _ _ => Finset.sum_nonneg fun _ _ => Finset.sum_nonneg fun _ _ => abs_nonneg _

/-- One-dimensional integration by parts for two combinations of tabulated functions. -/
theorem ibp_expand (n N : Nat) (w : Nat → ℝ) (α β : Nat → ℝ) (v dv : Nat → Nat → ℝ) :
    ∑ s ∈ range N, w s * ((∑ m ∈ range n, α m * v m s) * (∑ m ∈ range n, β m * dv m s)
        + (∑ m ∈ range n, α m * dv m s) * (∑ m ∈ range n, β m * v m s))
      = ∑ m ∈ range n, ∑ m' ∈ range n, α m * β m' * ∑ s ∈ range N, w s * (v m s * dv m' s + dv m s * v m' s) := by
  have e : ∀ s, w s * ((∑ m ∈ range n, α m * v m s) * (∑ m ∈ range n, β m * dv m s)
        + (∑ m ∈ range n, α m * dv m s) * (∑ m ∈ range n, β m * v m s))
      = ∑ m ∈ range n, ∑ m' ∈ range n, α m * β m' * (w s * (v m s * dv m' s + dv m s * v m' s)) := by
    intro s
    rw [Finset.sum_mul_sum, Finset.sum_mul_sum, ← Finset.sum_add_distrib, Finset.mul_sum]
    refine Finset.sum_congr rfl fun m _ => ?_
    rw [← Finset.sum_add_distrib, Finset.mul_sum]
    exact Finset.sum_congr rfl fun m' _ => by ring
  simp only [e]
  rw [Finset.sum_comm]
  refine Finset.sum_congr rfl fun m _ => ?_
  rw [Finset.sum_comm]
  exact Finset.sum_congr rfl fun m' _ => by rw [Finset.mul_sum]

theorem ibp_bound (n N : Nat) (w : Nat → ℝ) (α β : Nat → ℝ) (v dv : Nat → Nat → ℝ) (bd : Nat → Nat → ℝ) {ε KA KB : ℝ}
    (hε : ∀ m < n, ∀ m' < n, α m * β m' ≠ 0 → |∑ s ∈ range N, w s * (v m s * dv m' s + dv m s * v m' s) - bd m m'| ≤ ε) (h0 : 0 ≤ ε)
    (hb : ∀ m < n, ∀ m' < n, α m * β m' * bd m m' = 0)
    (hA : ∑ m ∈ range n, |α m| ≤ KA) (hB : ∑ m ∈ range n, |β m| ≤ KB) :
    |∑ s ∈ range N, w s * ((∑ m ∈ range n, α m * v m s) * (∑ m ∈ range n, β m * dv m s)
        + (∑ m ∈ range n, α m * dv m s) * (∑ m ∈ range n, β m * v m s))| ≤ ε * (KA * KB) := by
  rw [ibp_expand]
  have h1 : ∀ m ∈ range n, ∀ m' ∈ range n, |α m * β m' * ∑ s ∈ range N, w s * (v m s * dv m' s + dv m s * v m' s)|
      ≤ ε * (|α m| * |β m'|) := by
    intro m hm m' hm'
    have hm := mem_range.mp hm
    have hm' := mem_range.mp hm'
    by_cases hz : α m * β m' = 0
    · rw [hz, zero_mul, abs_zero]; positivity
    · have e : α m * β m' * ∑ s ∈ range N, w s * (v m s * dv m' s + dv m s * v m' s)
          = α m * β m' * (∑ s ∈ range N, w s * (v m s * dv m' s + dv m s * v m' s) - bd m m') := by
        rw [mul_sub, hb m hm m' hm', sub_zero]
      rw [e, abs_mul, abs_mul, mul_comm ε]
      exact mul_le_mul_of_nonneg_left (hε m hm m' hm' hz) (by positivity)
  calc _ ≤ ∑ m ∈ range n, ∑ m' ∈ range n, ε * (|α m| * |β m'|) := by
        refine (abs_sum_le_sum_abs _ _).trans (Finset.sum_le_sum fun m hm => ?_)
        exact (abs_sum_le_sum_abs _ _).trans (Finset.sum_le_sum fun m' hm' => h1 m hm m' hm')
    _ = ε * ((∑ m ∈ range n, |α m|) * ∑ m ∈ range n, |β m|) := by
        rw [Finset.sum_mul_sum]; simp only [Finset.mul_sum]
    _ ≤ _ := by
        refine mul_le_mul_of_nonneg_left (mul_le_mul hA hB (Finset.sum_nonneg fun _ _ => abs_nonneg _)
          ((Finset.sum_nonneg fun _ _ => abs_nonneg _).trans hA)) h0

/-- Integration by parts in one of three directions (`s`), the other two directions (`p`, `q`) being integrated. -/
theorem ibp3 (n P Q N : Nat) (wP wQ wS : Nat → ℝ) (α β : Nat → Nat → Nat → ℝ) (v dv : Nat → Nat → ℝ) (bd : Nat → Nat → ℝ)
    {ε KA KB sP sQ : ℝ} (h0 : 0 ≤ ε) (hP : ∀ p < P, 0 ≤ wP p) (hQ : ∀ q < Q, 0 ≤ wQ q)
    (hε : ∀ m < n, ∀ m' < n, (∃ p < P, ∃ q < Q, α m p q * β m' p q ≠ 0) →
      |∑ s ∈ range N, wS s * (v m s * dv m' s + dv m s * v m' s) - bd m m'| ≤ ε)
    (hb : ∀ m < n, ∀ m' < n, ∀ p < P, ∀ q < Q, α m p q * β m' p q * bd m m' = 0)
    (hA : ∀ p < P, ∀ q < Q, ∑ m ∈ range n, |α m p q| ≤ KA) (hB : ∀ p < P, ∀ q < Q, ∑ m ∈ range n, |β m p q| ≤ KB)
    (hKA : 0 ≤ KA) (hKB : 0 ≤ KB) (hsP : ∑ p ∈ range P, wP p ≤ sP) (hsQ : ∑ q ∈ range Q, wQ q ≤ sQ) :
    |∑ p ∈ range P, ∑ q ∈ range Q, ∑ s ∈ range N, wP p * wQ q * wS s *
        ((∑ m ∈ range n, α m p q * v m s) * (∑ m ∈ range n, β m p q * dv m s)
        + (∑ m ∈ range n, α m p q * dv m s) * (∑ m ∈ range n, β m p q * v m s))| ≤ ε * (sP * sQ) * (KA * KB) := by
  have h1 : ∀ p ∈ range P, ∀ q ∈ range Q, |∑ s ∈ range N, wP p * wQ q * wS s *
        ((∑ m ∈ range n, α m p q * v m s) * (∑ m ∈ range n, β m p q * dv m s)
        + (∑ m ∈ range n, α m p q * dv m s) * (∑ m ∈ range n, β m p q * v m s))| ≤ wP p * wQ q * (ε * (KA * KB)) := by
    intro p hp q hq
    have hp := mem_range.mp hp
    have hq := mem_range.mp hq
    have := ibp_bound n N wS (fun m => α m p q) (fun m => β m p q) v dv bd (KA := KA) (KB := KB) (ε := ε)
      (fun m hm m' hm' hz => hε m hm m' hm' ⟨p, hp, q, hq, hz⟩) h0 (fun m hm m' hm' => hb m hm m' hm' p hp q hq)
      (hA p hp q hq) (hB p hp q hq)
    simp only [mul_assoc (wP p * wQ q)]
    rw [← Finset.mul_sum, abs_mul, abs_of_nonneg (mul_nonneg (hP p hp) (hQ q hq))]
    exact mul_le_mul_of_nonneg_left this (mul_nonneg (hP p hp) (hQ q hq))
  have n1 : 0 ≤ ∑ p ∈ range P, wP p := Finset.sum_nonneg fun p hp => hP p (mem_range.mp hp)
  have n2 : 0 ≤ ∑ q ∈ range Q, wQ q := Finset.sum_nonneg fun p hp => hQ p (mem_range.mp hp)
  calc _ ≤ ∑ p ∈ range P, ∑ q ∈ range Q, wP p * wQ q * (ε * (KA * KB)) := by
        refine (abs_sum_le_sum_abs _ _).trans (Finset.sum_le_sum fun p hp => ?_)
        exact (abs_sum_le_sum_abs _ _).trans (Finset.sum_le_sum fun q hq => h1 p hp q hq)
    _ = ((∑ p ∈ range P, wP p) * ∑ q ∈ range Q, wQ q) * (ε * (KA * KB)) := by
        rw [Finset.sum_mul_sum, Finset.sum_mul]
        exact Finset.sum_congr rfl fun p _ => by rw [Finset.sum_mul]
    _ ≤ (sP * sQ) * (ε * (KA * KB)) := by
        refine mul_le_mul_of_nonneg_right (mul_le_mul hsP hsQ n2 (n1.trans hsP)) (by positivity)
    _ = _ := by ring

/-! ## Tensor sums, one direction singled out -/

theorem T3_outT (a b c : Nat) (C : Nat → Nat → Nat → ℝ) (u v w : Nat → ℝ) :
    T3 a b c C u v w = ∑ j ∈ range b, (∑ i ∈ range a, ∑ l ∈ range c, C i j l * (u i * w l)) * v j := by
  unfold T3
  rw [Finset.sum_comm]
  refine Finset.sum_congr rfl fun j _ => ?_
  simp only [Finset.sum_mul]
  exact Finset.sum_congr rfl fun i _ => Finset.sum_congr rfl fun l _ => by ring

theorem T3_outR (a b c : Nat) (C : Nat → Nat → Nat → ℝ) (u v w : Nat → ℝ) :
    T3 a b c C u v w = ∑ i ∈ range a, (∑ j ∈ range b, ∑ l ∈ range c, C i j l * (v j * w l)) * u i := by
  unfold T3
  refine Finset.sum_congr rfl fun j _ => ?_
  simp only [Finset.sum_mul]
  exact Finset.sum_congr rfl fun i _ => Finset.sum_congr rfl fun l _ => by ring

theorem T3_outZ (a b c : Nat) (C : Nat → Nat → Nat → ℝ) (u v w : Nat → ℝ) :
    T3 a b c C u v w = ∑ l ∈ range c, (∑ i ∈ range a, ∑ j ∈ range b, C i j l * (u i * v j)) * w l := by
  unfold T3
  have : ∀ i, ∑ j ∈ range b, ∑ l ∈ range c, C i j l * (u i * v j * w l) = ∑ l ∈ range c, ∑ j ∈ range b, C i j l * (u i * v j * w l) :=
    fun i => Finset.sum_comm
  simp only [this]
  rw [Finset.sum_comm]
  refine Finset.sum_congr rfl fun j _ => ?_
  simp only [Finset.sum_mul]
  exact Finset.sum_congr rfl fun i _ => Finset.sum_congr rfl fun l _ => by ring

/-- Bound for the coefficients left after singling out a direction. -/
theorem out_bound (a b : Nat) (C : Nat → Nat → ℝ) (u v : Nat → ℝ) {U V : ℝ} (hu : ∀ i < a, |u i| ≤ U) (hv : ∀ i < b, |v i| ≤ V)
    (hU : 0 ≤ U) : |∑ i ∈ range a, ∑ j ∈ range b, C i j * (u i * v j)| ≤ U * V * ∑ i ∈ range a, ∑ j ∈ range b, |C i j| := by
  rw [Finset.mul_sum]
  refine (abs_sum_le_sum_abs _ _).trans (Finset.sum_le_sum fun i hi => ?_)
  rw [Finset.mul_sum]
  refine (abs_sum_le_sum_abs _ _).trans (Finset.sum_le_sum fun j hj => ?_)
  rw [abs_mul, abs_mul, mul_comm]
  exact mul_le_mul_of_nonneg_right (mul_le_mul (hu i (mem_range.mp hi)) (hv j (mem_range.mp hj)) (abs_nonneg _) hU) (abs_nonneg _)

/-! ## Integration by parts for two tensor sums -/

section pairs
variable {nx ny nz : Nat} {wx wy wz : Nat → ℝ} (hx : ∀ i < nx, 0 ≤ wx i) (hy : ∀ i < ny, 0 ≤ wy i) (hz : ∀ i < nz, 0 ≤ wz i)
  {sx sy sz : ℝ} (hsx : ∑ i ∈ range nx, wx i ≤ sx) (hsy : ∑ i ∈ range ny, wy i ≤ sy) (hsz : ∑ i ∈ range nz, wz i ≤ sz)
  {ε : ℝ} (h0 : 0 ≤ ε)

include hx hz hsx hsz h0 in
theorem T3_ibpT {a a' n c c' : Nat} (C C' : Nat → Nat → Nat → ℝ) (u u' v dv w w' : Nat → Nat → ℝ) {U U' W W' : ℝ}
    (hU : 0 ≤ U) (hU' : 0 ≤ U') (hW : 0 ≤ W) (hW' : 0 ≤ W')
    (hu : ∀ p < nx, ∀ i < a, |u i p| ≤ U) (hu' : ∀ p < nx, ∀ i < a', |u' i p| ≤ U')
    (hw : ∀ p < nz, ∀ i < c, |w i p| ≤ W) (hw' : ∀ p < nz, ∀ i < c', |w' i p| ≤ W')
    (hε : ∀ m < n, ∀ m' < n, |∑ s ∈ range ny, wy s * (v m s * dv m' s + dv m s * v m' s)| ≤ ε) :
    |∑ p ∈ range nx, ∑ s ∈ range ny, ∑ q ∈ range nz, wx p * wy s * wz q *
      (T3 a n c C (fun i => u i p) (fun i => v i s) (fun i => w i q) * T3 a' n c' C' (fun i => u' i p) (fun i => dv i s) (fun i => w' i q)
      + T3 a n c C (fun i => u i p) (fun i => dv i s) (fun i => w i q) * T3 a' n c' C' (fun i => u' i p) (fun i => v i s) (fun i => w' i q))|
      ≤ ε * (sx * sz) * ((U * W * size3 a n c C) * (U' * W' * size3 a' n c' C')) := by
  have bound : ∀ {a c : Nat} (C : Nat → Nat → Nat → ℝ) (u w : Nat → Nat → ℝ) {U W : ℝ}, 0 ≤ U →
      (∀ p < nx, ∀ i < a, |u i p| ≤ U) → (∀ p < nz, ∀ i < c, |w i p| ≤ W) → ∀ p < nx, ∀ q < nz,
      ∑ m ∈ range n, |∑ i ∈ range a, ∑ l ∈ range c, C i m l * (u i p * w l q)| ≤ U * W * size3 a n c C := by
    intro a c C u w U W hU hu hw p hp q hq
    have : size3 a n c C = ∑ m ∈ range n, ∑ i ∈ range a, ∑ l ∈ range c, |C i m l| := by unfold size3; rw [Finset.sum_comm]
    rw [this, Finset.mul_sum]
    exact Finset.sum_le_sum fun m _ => out_bound a c (fun i l => C i m l) _ _ (hu p hp) (hw q hq) hU
  have := ibp3 n nx nz ny wx wz wy (fun m p q => ∑ i ∈ range a, ∑ l ∈ range c, C i m l * (u i p * w l q))
    (fun m p q => ∑ i ∈ range a', ∑ l ∈ range c', C' i m l * (u' i p * w' l q)) v dv (fun _ _ => 0) h0 hx hz
    (fun m hm m' hm' _ => by rw [sub_zero]; exact hε m hm m' hm') (fun _ _ _ _ _ _ _ _ => mul_zero _)
    (bound C u w hU hu hw) (bound C' u' w' hU' hu' hw')
    (mul_nonneg (mul_nonneg hU hW) (size3_nonneg _ _ _ _)) (mul_nonneg (mul_nonneg hU' hW') (size3_nonneg _ _ _ _)) hsx hsz
  refine le_trans (le_of_eq ?_) this
  congr 1
  refine Finset.sum_congr rfl fun p _ => ?_
  rw [Finset.sum_comm]
  refine Finset.sum_congr rfl fun q _ => Finset.sum_congr rfl fun s _ => ?_
  rw [T3_outT, T3_outT, T3_outT, T3_outT]
  ring

include hx hy hsx hsy h0 in
theorem T3_ibpZ {a a' n b b' : Nat} (C C' : Nat → Nat → Nat → ℝ) (u u' v v' w dw : Nat → Nat → ℝ) {U U' W W' : ℝ}
    (hU : 0 ≤ U) (hU' : 0 ≤ U') (hW : 0 ≤ W) (hW' : 0 ≤ W')
    (hu : ∀ p < nx, ∀ i < a, |u i p| ≤ U) (hu' : ∀ p < nx, ∀ i < a', |u' i p| ≤ U')
    (hv : ∀ p < ny, ∀ i < b, |v i p| ≤ W) (hv' : ∀ p < ny, ∀ i < b', |v' i p| ≤ W')
    (hε : ∀ m < n, ∀ m' < n, |∑ s ∈ range nz, wz s * (w m s * dw m' s + dw m s * w m' s)| ≤ ε) :
    |∑ p ∈ range nx, ∑ q ∈ range ny, ∑ s ∈ range nz, wx p * wy q * wz s *
      (T3 a b n C (fun i => u i p) (fun i => v i q) (fun i => w i s) * T3 a' b' n C' (fun i => u' i p) (fun i => v' i q) (fun i => dw i s)
      + T3 a b n C (fun i => u i p) (fun i => v i q) (fun i => dw i s) * T3 a' b' n C' (fun i => u' i p) (fun i => v' i q) (fun i => w i s))|
      ≤ ε * (sx * sy) * ((U * W * size3 a b n C) * (U' * W' * size3 a' b' n C')) := by
  have bound : ∀ {a b : Nat} (C : Nat → Nat → Nat → ℝ) (u w : Nat → Nat → ℝ) {U W : ℝ}, 0 ≤ U →
      (∀ p < nx, ∀ i < a, |u i p| ≤ U) → (∀ p < ny, ∀ i < b, |w i p| ≤ W) → ∀ p < nx, ∀ q < ny,
      ∑ m ∈ range n, |∑ i ∈ range a, ∑ l ∈ range b, C i l m * (u i p * w l q)| ≤ U * W * size3 a b n C := by
    intro a b C u w U W hU hu hw p hp q hq
    have : size3 a b n C = ∑ m ∈ range n, ∑ i ∈ range a, ∑ l ∈ range b, |C i l m| := by
      unfold size3
      have : ∀ i, ∑ j ∈ range b, ∑ l ∈ range n, |C i j l| = ∑ l ∈ range n, ∑ j ∈ range b, |C i j l| := fun i => Finset.sum_comm
      simp only [this]
      rw [Finset.sum_comm]
    rw [this, Finset.mul_sum]
    exact Finset.sum_le_sum fun m _ => out_bound a b (fun i l => C i l m) _ _ (hu p hp) (hw q hq) hU
  have := ibp3 n nx ny nz wx wy wz (fun m p q => ∑ i ∈ range a, ∑ l ∈ range b, C i l m * (u i p * v l q))
    (fun m p q => ∑ i ∈ range a', ∑ l ∈ range b', C' i l m * (u' i p * v' l q)) w dw (fun _ _ => 0) h0 hx hy
    (fun m hm m' hm' _ => by rw [sub_zero]; exact hε m hm m' hm') (fun _ _ _ _ _ _ _ _ => mul_zero _)
    (bound C u v hU hu hv) (bound C' u' v' hU' hu' hv')
    (mul_nonneg (mul_nonneg hU hW) (size3_nonneg _ _ _ _)) (mul_nonneg (mul_nonneg hU' hW') (size3_nonneg _ _ _ _)) hsx hsy
  refine le_trans (le_of_eq ?_) this
  congr 1
  refine Finset.sum_congr rfl fun p _ => Finset.sum_congr rfl fun q _ => Finset.sum_congr rfl fun s _ => ?_
  rw [T3_outZ, T3_outZ, T3_outZ, T3_outZ]

include hy hz hsy hsz h0 in
theorem T3_ibpR {n b b' c c' : Nat} (C C' : Nat → Nat → Nat → ℝ) (u du v v' w w' : Nat → Nat → ℝ) {U U' W W' : ℝ}
    (hU : 0 ≤ U) (hU' : 0 ≤ U') (hW : 0 ≤ W) (hW' : 0 ≤ W')
    (hu : ∀ p < ny, ∀ i < b, |v i p| ≤ U) (hu' : ∀ p < ny, ∀ i < b', |v' i p| ≤ U')
    (hw : ∀ p < nz, ∀ i < c, |w i p| ≤ W) (hw' : ∀ p < nz, ∀ i < c', |w' i p| ≤ W')
    (hε : ∀ m < n - 1, ∀ m' < n - 1, |∑ s ∈ range nx, wx s * (u m s * du m' s + du m s * u m' s)
      - (if m = 0 ∧ m' = 0 then -1 else 0)| ≤ ε)
    (hl : ∀ j < b, ∀ l < c, C (n - 1) j l = 0) (hl' : ∀ j < b', ∀ l < c', C' (n - 1) j l = 0)
    (h00 : (∀ j < b, ∀ l < c, C 0 j l = 0) ∨ ∀ j < b', ∀ l < c', C' 0 j l = 0) :
    |∑ s ∈ range nx, ∑ p ∈ range ny, ∑ q ∈ range nz, wx s * wy p * wz q *
      (T3 n b c C (fun i => u i s) (fun i => v i p) (fun i => w i q) * T3 n b' c' C' (fun i => du i s) (fun i => v' i p) (fun i => w' i q)
      + T3 n b c C (fun i => du i s) (fun i => v i p) (fun i => w i q) * T3 n b' c' C' (fun i => u i s) (fun i => v' i p) (fun i => w' i q))|
      ≤ ε * (sy * sz) * ((U * W * size3 n b c C) * (U' * W' * size3 n b' c' C')) := by
  have bound : ∀ {b c : Nat} (C : Nat → Nat → Nat → ℝ) (u w : Nat → Nat → ℝ) {U W : ℝ}, 0 ≤ U →
      (∀ p < ny, ∀ i < b, |u i p| ≤ U) → (∀ p < nz, ∀ i < c, |w i p| ≤ W) → ∀ p < ny, ∀ q < nz,
      ∑ m ∈ range n, |∑ i ∈ range b, ∑ l ∈ range c, C m i l * (u i p * w l q)| ≤ U * W * size3 n b c C := by
    intro b c C u w U W hU hu hw p hp q hq
    unfold size3
    rw [Finset.mul_sum]
    exact Finset.sum_le_sum fun m _ => out_bound b c (fun i l => C m i l) _ _ (hu p hp) (hw q hq) hU
  have zero : ∀ {b c : Nat} (C : Nat → Nat → Nat → ℝ) (v w : Nat → Nat → ℝ) (m : Nat), (∀ j < b, ∀ l < c, C m j l = 0) → ∀ p q,
      ∑ i ∈ range b, ∑ l ∈ range c, C m i l * (v i p * w l q) = 0 := by
    intro b c C v w m hm p q
    refine Finset.sum_eq_zero fun i hi => Finset.sum_eq_zero fun l hl => ?_
    rw [hm i (mem_range.mp hi) l (mem_range.mp hl), zero_mul]
  have := ibp3 n ny nz nx wy wz wx (fun m p q => ∑ i ∈ range b, ∑ l ∈ range c, C m i l * (v i p * w l q))
    (fun m p q => ∑ i ∈ range b', ∑ l ∈ range c', C' m i l * (v' i p * w' l q)) u du (fun m m' => if m = 0 ∧ m' = 0 then -1 else 0) h0 hy hz
    (fun m hm m' hm' hne => by
      obtain ⟨p, _, q, _, hne⟩ := hne
      refine hε m ?_ m' ?_
      · by_contra hc
        obtain rfl : m = n - 1 := by omega
        exact hne (by rw [zero C v w _ hl, zero_mul])
      · by_contra hc
        obtain rfl : m' = n - 1 := by omega
        exact hne (by rw [zero C' v' w' _ hl', mul_zero]))
    (fun m hm m' hm' p _ q _ => by
      by_cases hmm : m = 0 ∧ m' = 0
      · obtain ⟨rfl, rfl⟩ := hmm
        rcases h00 with h | h
        · rw [zero C v w _ h, zero_mul, zero_mul]
        · rw [zero C' v' w' _ h, mul_zero, zero_mul]
      · rw [if_neg hmm, mul_zero])
    (bound C v w hU hu hw) (bound C' v' w' hU' hu' hw')
    (mul_nonneg (mul_nonneg hU hW) (size3_nonneg _ _ _ _)) (mul_nonneg (mul_nonneg hU' hW') (size3_nonneg _ _ _ _)) hsy hsz
  refine le_trans (le_of_eq ?_) this
  congr 1
  rw [Finset.sum_comm]
  refine Finset.sum_congr rfl fun p _ => ?_
  rw [Finset.sum_comm]
  refine Finset.sum_congr rfl fun q _ => Finset.sum_congr rfl fun s _ => ?_
  rw [T3_outR, T3_outR, T3_outR, T3_outR]
  ring

end pairs

end Mrx
