import Verif.Model.Scan
import Mathlib.Algebra.BigOperators.Fin
import Mathlib.Tactic.Ring

/-!
# C83: the scans of `assemble`, `evaluate_at_xq`, `integrate_against` compute the sums
-/

set_option linter.unusedVariables false

namespace Mrx.Props
open Scan Matrix Finset

theorem sum_map_range (n : Nat) (f : Nat → ℝ) : ((List.range n).map f).sum = ∑ i ∈ range n, f i := by
  induction n with
  | zero => simp
  | succ n ih => rw [List.range_succ, List.map_append, List.sum_append, ih, Finset.sum_range_succ]; simp

theorem sum_fin_nat (n : Nat) (f : Nat → ℝ) : ∑ i : Fin n, f i = ∑ i ∈ range n, f i := Fin.sum_univ_eq_sum_range f n

/-- A scan whose body ignores the carry stacks the outputs. -/
theorem scan_map {X Y : Type} (h : X → Y) (f : Unit → X → Unit × Y) (hf : ∀ c x, (f c x).2 = h x) (xs : List X) (c : Unit) :
    (scan f c xs).2 = xs.map h := by
  induction xs generalizing c with
  | nil => rfl
  | cons x xs ih => simp only [scan, List.map_cons, hf]; rw [ih]

theorem at2_of {A : List (List ℝ)} {j k : Nat} {r : List ℝ} {v : ℝ} (h1 : A[j]? = some r) (h2 : r[k]? = some v) : at2 A j k = v := by
  unfold at2
  simp [List.getD_eq_getElem?_getD, h1, h2]

theorem getJk_len (g : Getter) (i nq d : Nat) : (getJk g i nq d).length = nq := by simp [getJk]

theorem getJk_getD (g : Getter) {i nq d j : Nat} (hj : j < nq) : (getJk g i nq d).getD j [] = (List.range d).map fun k => g i j k := by
  unfold getJk
  simp [hj]

theorem at2_getJk (g : Getter) {i nq d j k : Nat} (hj : j < nq) (hk : k < d) : at2 (getJk g i nq d) j k = g i j k := by
  unfold at2
  rw [getJk_getD g hj]
  simp [hk]

theorem einsum3_eq (g1 g2 : Getter) (a b nq d : Nat) (W : Nat → Nat → Nat → ℝ) :
    einsum3 nq d (getJk g1 a nq d) W (getJk g2 b nq d) =
      ∑ j ∈ range nq, ∑ k ∈ range d, ∑ m ∈ range d, g1 a j k * W j k m * g2 b j m := by
  unfold einsum3
  rw [sum_map_range]
  refine Finset.sum_congr rfl fun j hj => ?_
  rw [sum_map_range]
  refine Finset.sum_congr rfl fun k hk => ?_
  rw [sum_map_range]
  refine Finset.sum_congr rfl fun m hm => ?_
  rw [mem_range] at hj hk hm
  rw [at2_getJk g1 hj hk, at2_getJk g2 hj hm]

theorem assemble_code_eq (g1 g2 : Getter) (nq d : Nat) (W : Nat → Nat → Nat → ℝ) (n1 n2 : Nat) :
    Scan.assemble g1 g2 nq d W n1 n2 = (List.range n1).map fun a => (List.range n2).map fun b =>
      ∑ j ∈ range nq, ∑ k ∈ range d, ∑ m ∈ range d, g1 a j k * W j k m * g2 b j m := by
  unfold Scan.assemble
  rw [scan_map (fun i => (List.range n2).map fun m => einsum3 nq d (getJk g1 i nq d) W (getJk g2 m nq d)) _ (fun _ _ => rfl)]
  refine List.map_congr_left fun a _ => List.map_congr_left fun b _ => einsum3_eq g1 g2 a b nq d W

/-- **C83** `assemble`: for all getters, weights and sizes the scan returns an array of shape `(n1, n2)` whose entry `[a, b]` is
`Σ_{j,k,m} Λ1[a,j,k] W[j,k,m] Λ2[b,j,m]`. -/
theorem C83_assemble (g1 g2 : Getter) (nq d : Nat) (W : Nat → Nat → Nat → ℝ) (n1 n2 : Nat) :
    (Scan.assemble g1 g2 nq d W n1 n2).length = n1 ∧ (∀ r ∈ Scan.assemble g1 g2 nq d W n1 n2, r.length = n2) ∧
      ∀ a < n1, ∀ b < n2, ((Scan.assemble g1 g2 nq d W n1 n2)[a]?.bind (·[b]?)) =
        some (∑ j ∈ range nq, ∑ k ∈ range d, ∑ m ∈ range d, g1 a j k * W j k m * g2 b j m) := by
  rw [assemble_code_eq]
  refine ⟨by simp, fun r hr => ?_, fun a ha b hb => ?_⟩
  · rw [List.mem_map] at hr
    obtain ⟨a, _, rfl⟩ := hr
    simp
  · simp [List.getElem?_map, List.getElem?_range ha, List.getElem?_range hb]

/-- **C83** the matrices used by the other theorems (`Model/Assembly.lean`) are those computed by the scan. -/
theorem C83_assemble_matrix (g1 g2 : Getter) (nq d : Nat) (W : Nat → Nat → Nat → ℝ) (n1 n2 : Nat) (a : Fin n1) (b : Fin n2) :
    Mrx.assemble g1 g2 nq d (fun j => Matrix.of fun k m : Fin d => W j k m) n1 n2 a b = at2 (Scan.assemble g1 g2 nq d W n1 n2) a b := by
  have h := (C83_assemble g1 g2 nq d W n1 n2).2.2 a a.2 b b.2
  have : at2 (Scan.assemble g1 g2 nq d W n1 n2) a b =
      ∑ j ∈ range nq, ∑ k ∈ range d, ∑ m ∈ range d, g1 a j k * W j k m * g2 b j m := by
    rw [Option.bind_eq_some_iff] at h
    obtain ⟨r, h1, h2⟩ := h
    exact at2_of h1 h2
  rw [this]
  unfold Mrx.assemble
  refine Finset.sum_congr rfl fun j _ => ?_
  rw [← sum_fin_nat d (fun k => ∑ m ∈ range d, g1 a j k * W j k m * g2 b j m)]
  refine Finset.sum_congr rfl fun k _ => ?_
  rw [← sum_fin_nat d (fun m => g1 a j k * W j k m * g2 b j m)]
  rfl

/-! ## `evaluate_at_xq` -/

/-- The array of shape `(nq, d)` with entries `F j k`. -/
def tab (nq d : Nat) (F : Nat → Nat → ℝ) : List (List ℝ) := (List.range nq).map fun j => (List.range d).map fun k => F j k

theorem zipWith_map_range {α β γ : Type} (h : α → β → γ) (n : Nat) (f : Nat → α) (g : Nat → β) :
    List.zipWith h ((List.range n).map f) ((List.range n).map g) = (List.range n).map fun i => h (f i) (g i) := by
  rw [List.zipWith_map, List.zipWith_self]

theorem addScaled_tab (nq d : Nat) (F : Nat → Nat → ℝ) (g : Getter) (i : Nat) (v : ℝ) :
    addScaled (tab nq d F) (getJk g i nq d) v = tab nq d fun j k => F j k + g i j k * v := by
  unfold addScaled tab getJk
  rw [zipWith_map_range]
  refine List.map_congr_left fun j _ => ?_
  rw [zipWith_map_range]

theorem scan_evaluate (g : Getter) (nq d : Nat) (v : List ℝ) (xs : List Nat) (F : Nat → Nat → ℝ) :
    (scan (evaluateBody g nq d v) (tab nq d F) xs).1 = tab nq d fun j k => F j k + (xs.map fun i => g i j k * v.getD i 0).sum := by
  induction xs generalizing F with
  | nil => simp [scan]
  | cons x xs ih =>
    simp only [scan, evaluateBody]
    rw [addScaled_tab]
    change (scan (evaluateBody g nq d v) (tab nq d fun j k => F j k + g x j k * v.getD x 0) xs).1 = _
    rw [ih]
    simp only [List.map_cons, List.sum_cons, add_assoc]

theorem evaluate_code_eq (g : Getter) (dofs : List ℝ) (nq d : Nat) :
    Scan.evaluateAtXq g dofs nq d = tab nq d fun j k => ∑ i ∈ range dofs.length, g i j k * dofs.getD i 0 := by
  unfold Scan.evaluateAtXq
  have : zerosLike (getJk g 0 nq d) = tab nq d fun _ _ => 0 := by
    simp [zerosLike, getJk, tab, Function.comp_def]
  rw [this, scan_evaluate]
  unfold tab
  simp only [zero_add, sum_map_range]

/-- **C83** `evaluate_at_xq`: for all getters, coefficient vectors and sizes the scan returns an array of shape `(n_q, d)` whose entry
`[j, k]` is `Σ_i Λ[i,j,k] dofs[i]` (zero for the empty vector). -/
theorem C83_evaluate (g : Getter) (dofs : List ℝ) (nq d : Nat) :
    (Scan.evaluateAtXq g dofs nq d).length = nq ∧ (∀ r ∈ Scan.evaluateAtXq g dofs nq d, r.length = d) ∧
      ∀ j < nq, ∀ k < d, ((Scan.evaluateAtXq g dofs nq d)[j]?.bind (·[k]?)) = some (∑ i ∈ range dofs.length, g i j k * dofs.getD i 0) := by
  rw [evaluate_code_eq]
  unfold tab
  refine ⟨by simp, fun r hr => ?_, fun a ha b hb => ?_⟩
  · rw [List.mem_map] at hr
    obtain ⟨a, _, rfl⟩ := hr
    simp
  · simp [List.getElem?_map, List.getElem?_range ha, List.getElem?_range hb]

/-- **C83** the values used by the other theorems are those computed by the scan. -/
theorem C83_evaluate_model (g : Getter) {n : Nat} (dofs : Fin n → ℝ) (nq d : Nat) {j k : Nat} (hj : j < nq) (hk : k < d) :
    Mrx.evaluateAtXq g dofs j k = at2 (Scan.evaluateAtXq g (List.ofFn dofs) nq d) j k := by
  have h := (C83_evaluate g (List.ofFn dofs) nq d).2.2 j hj k hk
  have e : at2 (Scan.evaluateAtXq g (List.ofFn dofs) nq d) j k =
      ∑ i ∈ range (List.ofFn dofs).length, g i j k * (List.ofFn dofs).getD i 0 := by
    rw [Option.bind_eq_some_iff] at h
    obtain ⟨r, h1, h2⟩ := h
    exact at2_of h1 h2
  rw [e, List.length_ofFn, ← sum_fin_nat n (fun i => g i j k * (List.ofFn dofs).getD i 0)]
  unfold Mrx.evaluateAtXq
  refine Finset.sum_congr rfl fun i _ => ?_
  simp

/-! ## `integrate_against` -/

theorem sumMul_tab (g : Getter) (i nq d : Nat) (w : Nat → Nat → ℝ) :
    sumMul (getJk g i nq d) (tab nq d w) = ∑ j ∈ range nq, ∑ k ∈ range d, g i j k * w j k := by
  unfold sumMul getJk tab
  rw [zipWith_map_range, sum_map_range]
  refine Finset.sum_congr rfl fun j _ => ?_
  rw [zipWith_map_range, sum_map_range]

theorem integrate_code_eq (g : Getter) (w : Nat → Nat → ℝ) (nq d n : Nat) :
    Scan.integrateAgainst g (tab nq d w) nq d n = (List.range n).map fun i => ∑ j ∈ range nq, ∑ k ∈ range d, g i j k * w j k := by
  unfold Scan.integrateAgainst
  rw [scan_map (fun i => sumMul (getJk g i nq d) (tab nq d w)) _ (fun _ _ => rfl)]
  exact List.map_congr_left fun i _ => sumMul_tab g i nq d w

/-- **C83** `integrate_against`: for all getters, values and sizes the scan returns an array of shape `(n,)` whose entry `[i]` is
`Σ_{j,k} Λ[i,j,k] w[j,k]`. -/
theorem C83_integrate (g : Getter) (w : Nat → Nat → ℝ) (nq d n : Nat) :
    (Scan.integrateAgainst g (tab nq d w) nq d n).length = n ∧
      ∀ i < n, (Scan.integrateAgainst g (tab nq d w) nq d n)[i]? = some (∑ j ∈ range nq, ∑ k ∈ range d, g i j k * w j k) := by
  rw [integrate_code_eq]
  exact ⟨by simp, fun i hi => by simp [List.getElem?_map, List.getElem?_range hi]⟩

/-- **C83** the values used by the other theorems are those computed by the scan. -/
theorem C83_integrate_model (g : Getter) (w : Nat → Nat → ℝ) (nq d n : Nat) (i : Fin n) :
    Mrx.integrateAgainst g nq d (fun j (k : Fin d) => w j k) n i = (Scan.integrateAgainst g (tab nq d w) nq d n).getD i 0 := by
  have h := (C83_integrate g w nq d n).2 i i.2
  rw [List.getD_eq_getElem?_getD, h, Option.getD_some]
  unfold Mrx.integrateAgainst
  refine Finset.sum_congr rfl fun j _ => ?_
  rw [← sum_fin_nat d (fun k => g i j k * w j k)]

/-! ## How the three functions fit together -/

/-- **C83** `integrate_against` is the transpose of `evaluate_at_xq`: `Σ_{j,k} evaluate_at_xq(Λ, c)[j,k] w[j,k] = Σ_i c[i]
integrate_against(Λ, w)[i]`. -/
theorem C83_adjoint (g : Getter) (c : List ℝ) (w : Nat → Nat → ℝ) (nq d : Nat) :
    sumMul (Scan.evaluateAtXq g c nq d) (tab nq d w) =
      (List.zipWith (· * ·) c (Scan.integrateAgainst g (tab nq d w) nq d c.length)).sum := by
  rw [evaluate_code_eq, integrate_code_eq]
  have e : List.zipWith (· * ·) c ((List.range c.length).map fun i => ∑ j ∈ range nq, ∑ k ∈ range d, g i j k * w j k) =
      (List.range c.length).map fun i => c.getD i 0 * ∑ j ∈ range nq, ∑ k ∈ range d, g i j k * w j k := by
    have hc : c = (List.range c.length).map fun i => c.getD i 0 := by
      apply List.ext_getElem (by simp)
      intro i h1 h2
      simp [List.getElem?_eq_getElem h1]
    conv_lhs => enter [2]; rw [hc]
    rw [zipWith_map_range]
  rw [e, sum_map_range]
  have := sumMul_tab (fun _ j k => ∑ i ∈ range c.length, g i j k * c.getD i 0) 0 nq d w
  unfold getJk at this
  unfold tab at this ⊢
  rw [this]
  simp only [Finset.sum_mul, Finset.mul_sum]
  calc ∑ j ∈ range nq, ∑ k ∈ range d, ∑ i ∈ range c.length, g i j k * c.getD i 0 * w j k
      = ∑ j ∈ range nq, ∑ i ∈ range c.length, ∑ k ∈ range d, g i j k * c.getD i 0 * w j k :=
        Finset.sum_congr rfl fun j _ => Finset.sum_comm
    _ = ∑ i ∈ range c.length, ∑ j ∈ range nq, ∑ k ∈ range d, g i j k * c.getD i 0 * w j k := Finset.sum_comm
    _ = _ := Finset.sum_congr rfl fun i _ => Finset.sum_congr rfl fun j _ => Finset.sum_congr rfl fun k _ => by ring

/-- **C83** a matrix-vector product with an assembled matrix is "evaluate, weight, integrate": for every row `a`,
`Σ_b assemble(Λ1, Λ2, W)[a,b] c[b] = integrate_against(Λ1, W · evaluate_at_xq(Λ2, c))[a]`. -/
theorem C83_matvec (g1 g2 : Getter) (nq d : Nat) (W : Nat → Nat → Nat → ℝ) (n1 n2 : Nat) (c : Fin n2 → ℝ) (a : Fin n1) :
    ∑ b : Fin n2, at2 (Scan.assemble g1 g2 nq d W n1 n2) a b * c b =
      (Scan.integrateAgainst g1 (tab nq d fun j k => ∑ m ∈ range d, W j k m * at2 (Scan.evaluateAtXq g2 (List.ofFn c) nq d) j m)
        nq d n1).getD a 0 := by
  have h1 := (C83_integrate g1 (fun j k => ∑ m ∈ range d, W j k m * at2 (Scan.evaluateAtXq g2 (List.ofFn c) nq d) j m) nq d n1).2 a a.2
  rw [List.getD_eq_getElem?_getD, h1, Option.getD_some]
  have e1 : ∀ b : Fin n2, at2 (Scan.assemble g1 g2 nq d W n1 n2) a b =
      ∑ j ∈ range nq, ∑ k ∈ range d, ∑ m ∈ range d, g1 a j k * W j k m * g2 b j m := by
    intro b
    have h := (C83_assemble g1 g2 nq d W n1 n2).2.2 a a.2 b b.2
    rw [Option.bind_eq_some_iff] at h
    obtain ⟨r, h1, h2⟩ := h
    exact at2_of h1 h2
  have e2 : ∀ j < nq, ∀ m < d, at2 (Scan.evaluateAtXq g2 (List.ofFn c) nq d) j m = ∑ b : Fin n2, g2 b j m * c b := by
    intro j hj m hm
    rw [← C83_evaluate_model g2 c nq d hj hm]; rfl
  simp only [e1, Finset.sum_mul]
  rw [Finset.sum_comm]
  refine Finset.sum_congr rfl fun j hj => ?_
  rw [Finset.sum_comm]
  refine Finset.sum_congr rfl fun k hk => ?_
  rw [Finset.sum_comm, Finset.mul_sum]
  refine Finset.sum_congr rfl fun m hm => ?_
  rw [e2 j (mem_range.mp hj) m (mem_range.mp hm), Finset.mul_sum, Finset.mul_sum]
  exact Finset.sum_congr rfl fun b _ => by ring

/-- **C83** swapping the two families and transposing the weights transposes the matrix; so one family with symmetric weights gives a
symmetric matrix. -/
theorem C83_transpose (g1 g2 : Getter) (nq d : Nat) (W : Nat → Nat → Nat → ℝ) (n1 n2 : Nat) {a b : Nat} (ha : a < n1) (hb : b < n2) :
    ((Scan.assemble g1 g2 nq d W n1 n2)[a]?.bind (·[b]?)) =
      ((Scan.assemble g2 g1 nq d (fun j k m => W j m k) n2 n1)[b]?.bind (·[a]?)) := by
  rw [(C83_assemble g1 g2 nq d W n1 n2).2.2 a ha b hb, (C83_assemble g2 g1 nq d _ n2 n1).2.2 b hb a ha]
  congr 1
  refine Finset.sum_congr rfl fun j _ => ?_
  rw [Finset.sum_comm]
  exact Finset.sum_congr rfl fun k _ => Finset.sum_congr rfl fun m _ => by ring

/-- Non-trivial instance: two forms, two points, two components. -/
example : ((Scan.assemble (fun i j k => i + j + k) (fun i j k => i * j - k) 2 2 (fun j k m => if k = m then 1 else j) 2 3)[1]?.bind (·[2]?)) =
    some (13 : ℝ) := by
  rw [(C83_assemble _ _ 2 2 _ 2 3).2.2 1 (by norm_num) 2 (by norm_num)]
  simp [Finset.sum_range_succ]
  norm_num

end Mrx.Props
