import Verif.Proofs.Case
import Verif.Model.Cavity
import Verif.Props.Spectrum
import Verif.Props.Poisson
import Verif.Props.HarmonicNeg
import Mathlib.Analysis.Real.Pi.Bounds

/-!
# C94: the cavity eigenvalues of `cylinder_cavity.py`
-/

set_option linter.unusedVariables false
set_option linter.unusedSectionVars false

namespace Mrx.Props
open Matrix Spec Finset DeRham

/-! ## The table of analytic eigenvalues -/

namespace CavityTable
open Cavity

theorem collect_ok (l : List Int) (f : Int → Except String (List ℝ)) (g : Int → List ℝ) (h : ∀ x ∈ l, f x = .ok (g x)) :
    collect (l.map f) = .ok (l.flatMap g) := by
  induction l with
  | nil => rfl
  | cons x xs ih =>
    rw [List.map_cons, h x (by simp), collect, ih fun y hy => h y (by simp [hy])]
    rfl

/-- The integers whose absolute value is in the list. -/
def signed (l : List Int) : Finset Int := (l.flatMap fun n => [n, -n]).toFinset

theorem mem_signed {l : List Int} (hl : ∀ n ∈ l, 0 ≤ n) (n : Int) : n ∈ signed l ↔ |n| ∈ l := by
  unfold signed
  rw [List.mem_toFinset, List.mem_flatMap]
  constructor
  · rintro ⟨a, ha, h⟩
    simp only [List.mem_cons, List.not_mem_nil, or_false] at h
    have : |n| = a := by
      rcases h with rfl | rfl
      · exact abs_of_nonneg (hl _ ha)
      · rw [abs_neg]; exact abs_of_nonneg (hl _ ha)
    rw [this]; exact ha
  · intro h
    refine ⟨_, h, ?_⟩
    simp only [List.mem_cons, List.not_mem_nil, or_false]
    rcases abs_choice n with e | e
    · exact .inl e.symm
    · right; rw [e, neg_neg]

theorem sum_signed {l : List Int} (hl : ∀ n ∈ l, 0 ≤ n) (f : Int → Nat) :
    ∑ n ∈ signed l, f |n| = ∑ n ∈ l.toFinset, (if n = 0 then 1 else 2) * f n := by
  rw [← Finset.sum_fiberwise_of_maps_to (s := signed l) (t := l.toFinset) (g := fun n => |n|) (fun n hn => List.mem_toFinset.2 ((mem_signed hl n).1 hn))]
  refine Finset.sum_congr rfl fun j hj => ?_
  have hj' := List.mem_toFinset.1 hj
  have h0 := hl j hj'
  have e : (signed l).filter (fun n => |n| = j) = {j, -j} := by
    ext n
    simp only [mem_filter, mem_signed hl, mem_insert, mem_singleton]
    constructor
    · rintro ⟨h1, h2⟩
      rcases abs_choice n with e | e
      · left; rw [← h2, e]
      · right; rw [← h2, e, neg_neg]
    · rintro (rfl | rfl)
      · rw [abs_of_nonneg h0]; exact ⟨hj', rfl⟩
      · rw [abs_neg, abs_of_nonneg h0]; exact ⟨hj', rfl⟩
  rw [e]
  by_cases hz : j = 0
  · subst hz; simp
  · rw [Finset.sum_pair (by omega), if_neg hz, abs_neg, abs_of_nonneg h0]; ring

theorem count_flatMap_sum {α : Type} [DecidableEq α] (l : List α) (hl : l.Nodup) (g : α → List ℝ) (c : ℝ) :
    (l.flatMap g).count c = ∑ x ∈ l.toFinset, (g x).count c := by
  rw [List.count_flatMap, ← List.sum_toFinset _ hl]
  rfl

end CavityTable

open Cavity CavityTable

/-- The eigenvalue of a mode: `b` says whether it is TE or TM, `n` and `k` are the (signed) azimuthal and axial mode numbers, `m ≥ 1` numbers the roots `root b |n|` of the
Bessel function or its derivative; `a` is the radius and `h` the period. -/
noncomputable def cavityMode (root : Bool → Int → Int → ℝ) (a h : ℝ) (x : Bool × Int × Int × Int) : ℝ :=
  (root x.1 |x.2.1| x.2.2.1 / a) ^ 2 + (2 * Real.pi * x.2.2.2 / h) ^ 2

/-- The library returns the first `M` roots, for every `M`, for the orders in `found`; for the others it raises a `ValueError`. -/
def GivesRoots (found : Int → Bool) (root : Int → Int → ℝ) (zeros : Int → Nat → Option (List ℝ)) : Prop :=
  ∀ n, 0 ≤ n → ∀ M : Nat, zeros n M = if found n then some ((List.range M).map fun i : Nat => root n ((i : Int) + 1)) else none

theorem flatMap_filter_if {β : Type} (f : Int → Bool) (l : List Int) (g : Int → List β) :
    (l.filter f).flatMap g = l.flatMap fun n => if f n then g n else [] := by
  induction l with
  | nil => rfl
  | cons a l ih =>
    rw [List.flatMap_cons, ← ih]
    cases h : f a
    · rw [List.filter_cons_of_neg (by simp [h])]; simp
    · rw [List.filter_cons_of_pos h, List.flatMap_cons]; simp

theorem loop_ok {found : Int → Bool} {root : Int → Int → ℝ} {zeros : Int → Nat → Option (List ℝ)} (hz : GivesRoots found root zeros) (a h : ℝ) (nv mv kv : List Int) (maxM : Int)
    (hn : ∀ n ∈ nv, 0 ≤ n) (hm : ∀ m ∈ mv, 1 ≤ m ∧ m ≤ maxM) :
    modeLoop zeros a h nv mv kv maxM = .ok ((nv.filter found).flatMap fun n => mv.flatMap fun m => kv.flatMap fun k =>
      List.replicate (multiplicity n k) (modeEigenvalue a h (root n m) k)) := by
  unfold modeLoop
  rw [flatMap_filter_if]
  refine collect_ok _ _ _ fun n hnn => ?_
  rw [hz n (hn n hnn)]
  cases hf : found n
  · simp
  simp only [if_true]
  refine collect_ok _ _ _ fun m hmm => ?_
  obtain ⟨h1, h2⟩ := hm m hmm
  obtain ⟨i, rfl⟩ : ∃ i : Nat, m = i + 1 := ⟨(m - 1).toNat, by omega⟩
  unfold radialEntries
  rw [if_pos (by rw [List.length_map, List.length_range]; omega)]
  have : pyGet ((List.range maxM.toNat).map fun i : Nat => root n ((i : Int) + 1)) ((i : Int) + 1 - 1) = .ok (root n (i + 1)) := by
    unfold pyGet
    rw [if_pos (by omega), show ((i : Int) + 1 - 1).toNat = i by omega, List.getElem?_map, List.getElem?_range (by omega)]
    rfl
  rw [this]

theorem count_loop (root : Int → Int → ℝ) (a h : ℝ) {nv mv kv : List Int} (dn : nv.Nodup) (dm : mv.Nodup) (dk : kv.Nodup)
    (hn : ∀ n ∈ nv, 0 ≤ n) (hk : ∀ k ∈ kv, 0 ≤ k) (c : ℝ) :
    (nv.flatMap fun n => mv.flatMap fun m => kv.flatMap fun k => List.replicate (multiplicity n k) (modeEigenvalue a h (root n m) k)).count c =
      ∑ n ∈ signed nv, ∑ m ∈ mv.toFinset, ∑ k ∈ signed kv, if (root |n| m / a) ^ 2 + (2 * Real.pi * k / h) ^ 2 = c then 1 else 0 := by
  rw [count_flatMap_sum _ dn]
  rw [sum_signed hn fun n => ∑ m ∈ mv.toFinset, ∑ k ∈ signed kv, if (root n m / a) ^ 2 + (2 * Real.pi * k / h) ^ 2 = c then 1 else 0]
  refine Finset.sum_congr rfl fun n _ => ?_
  rw [count_flatMap_sum _ dm, Finset.mul_sum]
  refine Finset.sum_congr rfl fun m _ => ?_
  have e : ∀ k : Int, (2 * Real.pi * (|k| : Int) / h) ^ 2 = (2 * Real.pi * k / h) ^ 2 := by
    intro k
    rw [div_pow, div_pow, mul_pow, mul_pow _ (k : ℝ), Int.cast_abs, sq_abs]
  have : (∑ k ∈ signed kv, if (root n m / a) ^ 2 + (2 * Real.pi * k / h) ^ 2 = c then 1 else 0) =
      ∑ k ∈ signed kv, (fun k : Int => if (root n m / a) ^ 2 + (2 * Real.pi * k / h) ^ 2 = c then 1 else 0) |k| := by
    refine Finset.sum_congr rfl fun k _ => ?_
    beta_reduce
    rw [e]
  rw [this, sum_signed hk (fun k : Int => if (root n m / a) ^ 2 + (2 * Real.pi * k / h) ^ 2 = c then 1 else 0), count_flatMap_sum _ dk, Finset.mul_sum]
  refine Finset.sum_congr rfl fun k _ => ?_
  rw [List.count_replicate]
  unfold Cavity.multiplicity modeEigenvalue
  rw [show 2 * (k : ℝ) * Real.pi / h = 2 * Real.pi * k / h by ring]
  by_cases hc : (root n m / a) ^ 2 + (2 * Real.pi * (k : ℝ) / h) ^ 2 = c
  · simp [hc]
  · simp [hc]

/-- **C94** the table of analytic eigenvalues: for mode numbers without repetitions (`n, k ≥ 0`, `m ≥ 1`) it is sorted, and every number occurs in it as often as there are (among the orders for which the library finds the roots)
TE and TM modes with this eigenvalue, azimuthal number `±n`, axial number `±k` and radial number `m`. -/
theorem C94_table {found : Bool → Int → Bool} {root : Bool → Int → Int → ℝ} {zerosTE zerosTM : Int → Nat → Option (List ℝ)}
    (hTE : GivesRoots (found true) (root true) zerosTE) (hTM : GivesRoots (found false) (root false) zerosTM) {nv mv kv : List Int}
    (dn : nv.Nodup) (dm : mv.Nodup) (dk : kv.Nodup) (hn : ∀ n ∈ nv, 0 ≤ n) (hm : ∀ m ∈ mv, 1 ≤ m) (hk : ∀ k ∈ kv, 0 ≤ k) {a h : ℝ} (ha : 0 < a) (hh : 0 < h) :
    ∃ r, eigenvalueTable zerosTE zerosTM nv mv kv a h = .ok r ∧ r.Pairwise (· ≤ ·) ∧
      ∀ c, r.count c = Set.ncard {x : Bool × Int × Int × Int |
        found x.1 |x.2.1| = true ∧ |x.2.1| ∈ nv ∧ x.2.2.1 ∈ mv ∧ |x.2.2.2| ∈ kv ∧ cavityMode root a h x = c} := by
  unfold eigenvalueTable
  rw [if_neg (not_not.2 ⟨ha, hh⟩)]
  rcases hmx : mv.max? with _ | M
  · rw [List.max?_eq_none_iff] at hmx
    subst hmx
    refine ⟨[], rfl, List.Pairwise.nil, fun c => ?_⟩
    rw [show {x : Bool × Int × Int × Int | found x.1 |x.2.1| = true ∧ |x.2.1| ∈ nv ∧ x.2.2.1 ∈ ([] : List Int) ∧ |x.2.2.2| ∈ kv ∧ cavityMode root a h x = c} = ∅ by
      ext x; simp]
    simp
  · have hM := List.max?_eq_some_iff.1 hmx
    have hm' : ∀ m ∈ mv, 1 ≤ m ∧ m ≤ M := fun m hmm => ⟨hm m hmm, hM.2 m hmm⟩
    have h1 := (hm' M hM.1).1
    dsimp only
    rw [if_neg (by omega), if_neg (by simpa using hk), if_neg (by simpa using hn), loop_ok hTE a h nv mv kv M hn hm', loop_ok hTM a h nv mv kv M hn hm']
    dsimp only
    refine ⟨_, rfl, List.pairwise_insertionSort _ _, fun c => ?_⟩
    rw [(List.perm_insertionSort _ _).count_eq, List.count_append,
      count_loop _ a h (dn.filter _) dm dk (fun n hx => hn n (List.mem_filter.1 hx).1) hk,
      count_loop _ a h (dn.filter _) dm dk (fun n hx => hn n (List.mem_filter.1 hx).1) hk]
    have hs : {x : Bool × Int × Int × Int | found x.1 |x.2.1| = true ∧ |x.2.1| ∈ nv ∧ x.2.2.1 ∈ mv ∧ |x.2.2.2| ∈ kv ∧ cavityMode root a h x = c} =
        (((((Finset.univ : Finset Bool).sigma fun b => signed (nv.filter (found b)) ×ˢ mv.toFinset ×ˢ signed kv).map
          ⟨fun y : (_ : Bool) × (Int × Int × Int) => (y.1, y.2), fun y z e => by cases y; cases z; simp at e; simp [e]⟩).filter
            fun x => cavityMode root a h x = c : Finset _) : Set _) := by
      ext x
      obtain ⟨b, n, m, k⟩ := x
      simp only [Set.mem_setOf_eq, Finset.coe_filter, Finset.mem_map, Finset.mem_sigma, Finset.mem_univ, true_and, Finset.mem_product,
        Function.Embedding.coeFn_mk, mem_signed hk, mem_signed (fun n hx => hn n (List.mem_filter.1 hx).1), List.mem_toFinset, List.mem_filter]
      constructor
      · rintro ⟨x1, x2, x3, x4, x5⟩; exact ⟨⟨⟨b, n, m, k⟩, ⟨⟨x2, x1⟩, x3, x4⟩, rfl⟩, x5⟩
      · rintro ⟨⟨⟨b', n', m', k'⟩, ⟨⟨x2, x1⟩, x3, x4⟩, e⟩, x5⟩
        injection e with e1 e2
        injection e2 with e2 e3
        injection e3 with e3 e4
        subst e1 e2 e3 e4
        exact ⟨x1, x2, x3, x4, x5⟩
    rw [hs, Set.ncard_coe_finset, Finset.card_filter, Finset.sum_map, Finset.sum_sigma, Fintype.sum_bool]
    simp only [Finset.sum_product, Function.Embedding.coeFn_mk]
    rfl

/-- **C94** hence the table is complete below the lowest eigenvalue that was left out: up to there it lists every mode of the cavity, with its multiplicity. -/
theorem C94_complete_below {found : Bool → Int → Bool} {root : Bool → Int → Int → ℝ} {zerosTE zerosTM : Int → Nat → Option (List ℝ)}
    (hTE : GivesRoots (found true) (root true) zerosTE) (hTM : GivesRoots (found false) (root false) zerosTM) {nv mv kv : List Int}
    (dn : nv.Nodup) (dm : mv.Nodup) (dk : kv.Nodup) (hn : ∀ n ∈ nv, 0 ≤ n) (hm : ∀ m ∈ mv, 1 ≤ m) (hk : ∀ k ∈ kv, 0 ≤ k) {a h L : ℝ} (ha : 0 < a) (hh : 0 < h)
    (hL : ∀ x : Bool × Int × Int × Int, 1 ≤ x.2.2.1 → (found x.1 |x.2.1| = false ∨ |x.2.1| ∉ nv ∨ x.2.2.1 ∉ mv ∨ |x.2.2.2| ∉ kv) → L ≤ cavityMode root a h x) :
    ∃ r, eigenvalueTable zerosTE zerosTM nv mv kv a h = .ok r ∧
      ∀ c < L, r.count c = Set.ncard {x : Bool × Int × Int × Int | 1 ≤ x.2.2.1 ∧ cavityMode root a h x = c} := by
  obtain ⟨r, h1, -, h2⟩ := C94_table hTE hTM dn dm dk hn hm hk ha hh
  refine ⟨r, h1, fun c hc => ?_⟩
  rw [h2]
  congr 1
  ext x
  constructor
  · rintro ⟨_, _, e2, _, e4⟩; exact ⟨hm _ e2, e4⟩
  · rintro ⟨e1, e4⟩
    by_contra hx
    refine absurd (hL x e1 ?_) (not_le.2 (by rw [e4]; exact hc))
    by_contra hno
    push Not at hno
    exact hx ⟨by simpa using hno.1, hno.2.1, hno.2.2.1, hno.2.2.2, e4⟩

/-- **C94** the rejected arguments: a non-positive radius or period, a negative `n` or `k`, and radial numbers that are all non-positive. -/
theorem C94_rejects (zerosTE zerosTM : Int → Nat → Option (List ℝ)) (nv mv kv : List Int) (a h : ℝ) (hne : mv ≠ []) :
    (a ≤ 0 ∨ h ≤ 0 ∨ (∀ m ∈ mv, m ≤ 0) ∨ (∃ k ∈ kv, k < 0) ∨ (∃ n ∈ nv, n < 0)) → ∃ e, eigenvalueTable zerosTE zerosTM nv mv kv a h = .error e := by
  intro hor
  unfold eigenvalueTable
  by_cases hp : a > 0 ∧ h > 0
  · rw [if_neg (not_not.2 hp)]
    rcases hmx : mv.max? with _ | M
    · exact absurd (List.max?_eq_none_iff.1 hmx) hne
    · have hM := List.max?_eq_some_iff.1 hmx
      dsimp only
      by_cases h1 : M ≤ 0
      · rw [if_pos h1]; exact ⟨_, rfl⟩
      · rw [if_neg h1]
        by_cases h2 : kv.any (· < 0) = true
        · rw [if_pos h2]; exact ⟨_, rfl⟩
        · rw [if_neg h2]
          by_cases h3 : nv.any (· < 0) = true
          · rw [if_pos h3]; exact ⟨_, rfl⟩
          · exfalso
            rcases hor with h | h | h | h | h
            · linarith [hp.1]
            · linarith [hp.2]
            · exact h1 (h M hM.1)
            · exact h2 (by simpa using h)
            · exact h3 (by simpa using h)
  · rw [if_pos hp]; exact ⟨_, rfl⟩

theorem collect_error (xs : List (Except String (List ℝ))) : (∃ e, collect xs = .error e) ↔ ∃ x ∈ xs, ∃ e, x = .error e := by
  induction xs with
  | nil => simp [collect]
  | cons x xs ih =>
    cases x with
    | error e => simp [collect]
    | ok l =>
      rw [collect]
      cases hc : collect xs with
      | error e =>
        rw [hc] at ih
        have := ih.1 ⟨e, rfl⟩
        simpa using this
      | ok r =>
        rw [hc] at ih
        have h0 : ¬ ∃ x ∈ xs, ∃ e, x = Except.error e := fun hx => by simpa using ih.2 hx
        simpa using h0

theorem radial_error (a h : ℝ) (kv : List Int) (n : Int) (zeros : List ℝ) (m : Int) :
    (∃ e, radialEntries a h kv n zeros m = .error e) ↔ m - 1 < -(zeros.length : Int) := by
  unfold radialEntries
  by_cases h1 : m - 1 < zeros.length
  · rw [if_pos h1]
    unfold pyGet
    by_cases h2 : 0 ≤ m - 1
    · rw [if_pos h2, List.getElem?_eq_getElem (show (m - 1).toNat < zeros.length by omega)]
      simp; omega
    · rw [if_neg h2]
      by_cases h3 : 0 ≤ m - 1 + zeros.length
      · rw [if_pos h3, List.getElem?_eq_getElem (show (m - 1 + zeros.length).toNat < zeros.length by omega)]
        simp; omega
      · rw [if_neg h3]
        simp; omega
  · rw [if_neg h1]
    simp; omega

theorem loop_error {found : Int → Bool} {root : Int → Int → ℝ} {zeros : Int → Nat → Option (List ℝ)} (hz : GivesRoots found root zeros) (a h : ℝ) (nv mv kv : List Int) (maxM : Int)
    (hM : 0 < maxM) (hn : ∀ n ∈ nv, 0 ≤ n) :
    (∃ e, modeLoop zeros a h nv mv kv maxM = .error e) ↔ ∃ n ∈ nv, found n = true ∧ ∃ m ∈ mv, m ≤ -maxM := by
  unfold modeLoop
  rw [collect_error]
  constructor
  · rintro ⟨x, hx, e, rfl⟩
    obtain ⟨n, hnn, hx⟩ := List.mem_map.1 hx
    rw [hz n (hn n hnn)] at hx
    cases hf : found n
    · simp [hf] at hx
    · simp only [hf, if_true] at hx
      obtain ⟨y, hy, e', rfl⟩ := (collect_error _).1 ⟨_, hx⟩
      obtain ⟨m, hm, hy⟩ := List.mem_map.1 hy
      have := (radial_error _ _ _ _ _ _).1 ⟨_, hy⟩
      rw [List.length_map, List.length_range] at this
      exact ⟨n, hnn, hf, m, hm, by omega⟩
  · rintro ⟨n, hnn, hf, m, hm, hle⟩
    obtain ⟨e', he'⟩ := (radial_error a h kv n ((List.range maxM.toNat).map fun i : Nat => root n ((i : Int) + 1)) m).2
      (by rw [List.length_map, List.length_range]; omega)
    obtain ⟨e, he⟩ := (collect_error (mv.map fun m => radialEntries a h kv n ((List.range maxM.toNat).map fun i : Nat => root n ((i : Int) + 1)) m)).2
      ⟨_, List.mem_map.2 ⟨m, hm, rfl⟩, e', he'⟩
    refine ⟨_, List.mem_map.2 ⟨n, hnn, rfl⟩, e, ?_⟩
    rw [hz n (hn n hnn)]
    simp only [hf, if_true]
    exact he

/-- **C94** exactly these arguments raise: a non-positive radius or period, and, if there is a radial number at all: radial numbers that are all non-positive, a negative `n` or `k`, and
a radial number `m ≤ -max(m_values)` (an `IndexError`, if an order is given for which the roots are found). All other calls return a table. -/
theorem C94_raises_iff {found : Bool → Int → Bool} {root : Bool → Int → Int → ℝ} {zerosTE zerosTM : Int → Nat → Option (List ℝ)}
    (hTE : GivesRoots (found true) (root true) zerosTE) (hTM : GivesRoots (found false) (root false) zerosTM) (nv mv kv : List Int) (a h : ℝ) :
    (∃ e, eigenvalueTable zerosTE zerosTM nv mv kv a h = .error e) ↔
      a ≤ 0 ∨ h ≤ 0 ∨ mv ≠ [] ∧ ((∀ m ∈ mv, m ≤ 0) ∨ (∃ k ∈ kv, k < 0) ∨ (∃ n ∈ nv, n < 0) ∨
        ∃ m ∈ mv, (∀ m' ∈ mv, m' ≤ -m) ∧ ∃ n ∈ nv, ∃ b, found b n = true) := by
  by_cases hne : mv = []
  · subst hne
    unfold eigenvalueTable
    by_cases hp : a > 0 ∧ h > 0
    · rw [if_neg (not_not.2 hp)]
      simp [not_le.2 hp.1, not_le.2 hp.2]
    · rw [if_pos hp]
      rw [not_and_or, not_lt, not_lt] at hp
      rcases hp with hp | hp <;> simp [hp]
  by_cases h5 : a ≤ 0 ∨ h ≤ 0 ∨ (∀ m ∈ mv, m ≤ 0) ∨ (∃ k ∈ kv, k < 0) ∨ (∃ n ∈ nv, n < 0)
  · refine iff_of_true (C94_rejects zerosTE zerosTM nv mv kv a h hne h5) ?_
    rcases h5 with h5 | h5 | h5 | h5 | h5
    · exact .inl h5
    · exact .inr (.inl h5)
    · exact .inr (.inr ⟨hne, .inl h5⟩)
    · exact .inr (.inr ⟨hne, .inr (.inl h5)⟩)
    · exact .inr (.inr ⟨hne, .inr (.inr (.inl h5))⟩)
  push Not at h5
  obtain ⟨ha, hh, ⟨m0, hm0, hm0'⟩, hk, hn⟩ := h5
  unfold eigenvalueTable
  rw [if_neg (not_not.2 ⟨ha, hh⟩)]
  rcases hmx : mv.max? with _ | M
  · rw [List.max?_eq_none_iff] at hmx
    exact absurd hmx hne
  · have hM := List.max?_eq_some_iff.1 hmx
    have hM0 : 0 < M := lt_of_lt_of_le hm0' (hM.2 _ hm0)
    dsimp only
    rw [if_neg (by omega), if_neg (by simpa using hk), if_neg (by simpa using hn)]
    have eTE := loop_error hTE a h nv mv kv M hM0 hn
    have eTM := loop_error hTM a h nv mv kv M hM0 hn
    have hmm : ∀ m, (∀ m' ∈ mv, m' ≤ -m) ↔ m ≤ -M := fun m =>
      ⟨fun hx => by have := hx M hM.1; omega, fun hx m' hm' => by have := hM.2 m' hm'; omega⟩
    have hR : (a ≤ 0 ∨ h ≤ 0 ∨ mv ≠ [] ∧ ((∀ m ∈ mv, m ≤ 0) ∨ (∃ k ∈ kv, k < 0) ∨ (∃ n ∈ nv, n < 0) ∨
        ∃ m ∈ mv, (∀ m' ∈ mv, m' ≤ -m) ∧ ∃ n ∈ nv, ∃ b, found b n = true)) ↔
        (∃ n ∈ nv, found true n = true ∧ ∃ m ∈ mv, m ≤ -M) ∨ (∃ n ∈ nv, found false n = true ∧ ∃ m ∈ mv, m ≤ -M) := by
      constructor
      · rintro (hx | hx | ⟨-, hx | hx | hx | ⟨m, hm, hm', n, hnn, b, hb⟩⟩)
        · exact absurd hx (not_le.2 ha)
        · exact absurd hx (not_le.2 hh)
        · exact absurd (hx m0 hm0) (by omega)
        · obtain ⟨k, h1, h2⟩ := hx
          have := hk k h1; omega
        · obtain ⟨k, h1, h2⟩ := hx
          have := hn k h1; omega
        · rw [hmm] at hm'
          cases b
          · exact .inr ⟨n, hnn, hb, m, hm, hm'⟩
          · exact .inl ⟨n, hnn, hb, m, hm, hm'⟩
      · rintro (⟨n, hnn, hb, m, hm, hm'⟩ | ⟨n, hnn, hb, m, hm, hm'⟩) <;>
          exact .inr (.inr ⟨hne, .inr (.inr (.inr ⟨m, hm, (hmm m).2 hm', n, hnn, _, hb⟩))⟩)
    rw [hR, ← eTE, ← eTM]
    cases modeLoop zerosTE a h nv mv kv M with
    | error e => simp
    | ok te =>
      cases modeLoop zerosTM a h nv mv kv M with
      | error e => simp
      | ok tm => simp

/-- **C94 (finding)** a non-positive radial number is not rejected if another one is positive (the documentation promises a `ValueError`): with `m_values = [0, M]` the
index `-1` silently selects the last root, the result is that for `[M, M]`. -/
theorem C94_radial_zero_accepted {found : Bool → Int → Bool} {root : Bool → Int → Int → ℝ} {zerosTE zerosTM : Int → Nat → Option (List ℝ)}
    (hTE : GivesRoots (found true) (root true) zerosTE) (hTM : GivesRoots (found false) (root false) zerosTM) {nv kv : List Int} (hn : ∀ n ∈ nv, 0 ≤ n) (hk : ∀ k ∈ kv, 0 ≤ k) {M : Int} (hM : 1 ≤ M) {a h : ℝ} (ha : 0 < a) (hh : 0 < h) :
    eigenvalueTable zerosTE zerosTM nv [0, M] kv a h = eigenvalueTable zerosTE zerosTM nv [M, M] kv a h ∧
      ∃ r, eigenvalueTable zerosTE zerosTM nv [0, M] kv a h = .ok r := by
  have key : ∀ (found : Int → Bool) (root : Int → Int → ℝ) (zeros : Int → Nat → Option (List ℝ)), GivesRoots found root zeros →
      modeLoop zeros a h nv [0, M] kv M = modeLoop zeros a h nv [M, M] kv M := by
    intro found root zeros hz
    unfold modeLoop
    congr 1
    refine List.map_congr_left fun n hnn => ?_
    rw [hz n (hn n hnn)]
    cases hf : found n
    · rfl
    simp only [if_true]
    congr 1
    have : radialEntries a h kv n ((List.range M.toNat).map fun i : Nat => root n ((i : Int) + 1)) 0 =
        radialEntries a h kv n ((List.range M.toNat).map fun i : Nat => root n ((i : Int) + 1)) M := by
      obtain ⟨i, rfl⟩ : ∃ i : Nat, M = i + 1 := ⟨(M - 1).toNat, by omega⟩
      unfold radialEntries
      have hl : ((List.range ((i : Int) + 1).toNat).map fun i : Nat => root n ((i : Int) + 1)).length = i + 1 := by
        rw [List.length_map, List.length_range]; omega
      rw [if_pos (by rw [hl]; omega), if_pos (by rw [hl]; omega)]
      have e : pyGet ((List.range ((i : Int) + 1).toNat).map fun i : Nat => root n ((i : Int) + 1)) (0 - 1) =
          pyGet ((List.range ((i : Int) + 1).toNat).map fun i : Nat => root n ((i : Int) + 1)) ((i : Int) + 1 - 1) := by
        unfold pyGet
        rw [if_neg (by omega), if_pos (by rw [hl]; omega), if_pos (by omega), hl,
          show (0 - 1 + ((i + 1 : Nat) : Int)).toNat = ((i : Int) + 1 - 1).toNat by omega]
      rw [e]
    rw [List.map_cons, List.map_cons, this, List.map_cons, List.map_cons]
  have e : eigenvalueTable zerosTE zerosTM nv [0, M] kv a h = eigenvalueTable zerosTE zerosTM nv [M, M] kv a h := by
    unfold eigenvalueTable
    have m1 : ([0, M] : List Int).max? = some M := by simp [List.max?]; omega
    have m2 : ([M, M] : List Int).max? = some M := by simp [List.max?]
    rw [m1, m2]
    dsimp only
    rw [key _ _ _ hTE, key _ _ _ hTM]
  refine ⟨e, ?_⟩
  rw [e]
  unfold eigenvalueTable
  have m2 : ([M, M] : List Int).max? = some M := by simp [List.max?]
  have hm' : ∀ m ∈ ([M, M] : List Int), 1 ≤ m ∧ m ≤ M := by simpa using hM
  rw [if_neg (not_not.2 ⟨ha, hh⟩), m2]
  dsimp only
  rw [if_neg (by omega), if_neg (by simpa using hk), if_neg (by simpa using hn), loop_ok hTE a h nv _ kv M hn hm', loop_ok hTM a h nv _ kv M hn hm']
  exact ⟨_, rfl⟩

/-! ## Comparing computed and analytic eigenvalues -/

/-- **C94** the check passes exactly if every computed eigenvalue is within the relative tolerance of some analytic one (of a non-empty table of positive values). -/
theorem C94_check {trueEvs : List ℝ} (hne : trueEvs ≠ []) (hp : ∀ t ∈ trueEvs, 0 < t) (evs : List ℝ) (tol : ℝ) :
    checkEigenvalues evs trueEvs tol = some true ↔ ∀ e ∈ evs, ∃ t ∈ trueEvs, |e - t| < tol * t := by
  unfold checkEigenvalues
  rw [if_neg hne, Option.some_inj, List.all_eq_true]
  refine forall₂_congr fun e _ => ?_
  unfold Cavity.dist
  rcases hmin : (trueEvs.map fun t => |t - e| / t).min? with _ | d
  · rw [List.min?_eq_none_iff, List.map_eq_nil_iff] at hmin
    exact absurd hmin hne
  · obtain ⟨h1, h2⟩ := List.min?_eq_some_iff.1 hmin
    simp only [decide_eq_true_eq]
    obtain ⟨t, ht, htd⟩ := List.mem_map.1 h1
    constructor
    · intro hd
      refine ⟨t, ht, ?_⟩
      rw [← htd, div_lt_iff₀ (hp t ht)] at hd
      rwa [abs_sub_comm]
    · rintro ⟨s, hs, hlt⟩
      refine lt_of_le_of_lt (h2 _ (List.mem_map.2 ⟨s, hs, rfl⟩)) ?_
      rw [div_lt_iff₀ (hp s hs), abs_sub_comm]
      exact hlt

/-! ## The saddle point problem -/

section
variable {ns ps : Nat × Nat × Nat} {q : Nat} {types : String × String × String} {F : V3 → V3} {polar dirichlet : Bool} {D : DeRham}

/-- **C94** the saddle point eigenvalue problem of the script: `(v, p)` solves `Q z = λ P z` exactly if `v` is weakly divergence-free, `p` has no gradient and `v` solves the
Maxwell eigenvalue problem. The gradients, which make up the kernel of the double curl, are filtered out. -/
theorem C94_saddle_point (h : Admissible ns ps q types F polar dirichlet D) (lam : ℝ) (v : Fin D.m1 → ℝ) (p : Fin D.m0 → ℝ) :
    D.cavityQ *ᵥ Sum.elim v p = lam • D.cavityP *ᵥ Sum.elim v p ↔
      D.weakDiv *ᵥ v = 0 ∧ D.strongGrad *ᵥ p = 0 ∧ D.doubleCurl *ᵥ v = lam • D.M1 *ᵥ v := by
  obtain ⟨m0, m1, m2, m3⟩ := C31_mass_matrices_definite h
  obtain ⟨d0, -, -, w0, -, -⟩ := D_eq h
  have hwd : D.weakDiv *ᵥ v = 0 ↔ D.D0ᵀ *ᵥ v = 0 := by
    rw [w0, neg_mulVec, neg_eq_zero, ← mulVec_mulVec]
    constructor
    · intro e
      have := congrArg (fun z => D.M0 *ᵥ z) e
      beta_reduce at this
      rwa [mulVec_mulVec, m0.mul_inv, one_mulVec, mulVec_zero] at this
    · intro e; rw [e, mulVec_zero]
  have hQ : D.cavityQ *ᵥ Sum.elim v p = Sum.elim (D.doubleCurl *ᵥ v + D.D0 *ᵥ p) (D.D0ᵀ *ᵥ v) := by
    unfold cavityQ
    rw [fromBlocks_mulVec]
    simp
  have hP : lam • D.cavityP *ᵥ Sum.elim v p = Sum.elim (lam • D.M1 *ᵥ v) 0 := by
    unfold cavityP
    rw [fromBlocks_mulVec]
    simp only [zero_mulVec, add_zero, Sum.elim_comp_inl, Sum.elim_comp_inr]
    funext i
    rcases i with i | i <;> simp
  rw [hQ, hP, Sum.elim_eq_iff, hwd]
  constructor
  · rintro ⟨e1, e2⟩
    have hg : D.strongGrad *ᵥ p = 0 := by
      have hc : (D.strongGrad *ᵥ p) ⬝ᵥ D.doubleCurl *ᵥ v = 0 := by
        have hs := (C79_double_curl h).2.1.1
        rw [sym_dot hs]
        have : D.doubleCurl *ᵥ (D.strongGrad *ᵥ p) = 0 := by
          rw [(C79_double_curl h).2.2, mulVec_mulVec, (C33_exactness h).1, zero_mulVec]
        rw [this, dotProduct_zero]
      have e3 := congrArg (fun z => (D.strongGrad *ᵥ p) ⬝ᵥ z) e1
      beta_reduce at e3
      have e4 : (D.strongGrad *ᵥ p) ⬝ᵥ D.M1 *ᵥ v = 0 := by
        rw [sym_dot m1.1, mulVec_mulVec, ← d0, dotProduct_mulVec, ← mulVec_transpose, e2, zero_dotProduct]
      rw [dotProduct_add, hc, zero_add, dotProduct_smul, e4, smul_zero, d0, ← mulVec_mulVec] at e3
      exact m1.eq_zero e3
    refine ⟨e2, hg, ?_⟩
    rw [d0, ← mulVec_mulVec, hg, mulVec_zero, add_zero] at e1
    exact e1
  · rintro ⟨e1, e2, e3⟩
    refine ⟨?_, e1⟩
    rw [d0, ← mulVec_mulVec, e2, mulVec_zero, add_zero, e3]

/-- **C94** (without scalar functions of zero gradient, e.g. under Dirichlet conditions) the eigenvectors of the saddle point problem are the pairs `(v, 0)` with `v` an eigenfield
of the Hodge Laplacian on 1-forms that is weakly divergence-free, with the same eigenvalue, which is not negative. -/
theorem C94_modes (h : Admissible ns ps q types F polar dirichlet D) (hg : ∀ p, D.strongGrad *ᵥ p = 0 → p = 0) (lam : ℝ) (v : Fin D.m1 → ℝ) (p : Fin D.m0 → ℝ)
    (hz : v ≠ 0 ∨ p ≠ 0) :
    (D.cavityQ *ᵥ Sum.elim v p = lam • D.cavityP *ᵥ Sum.elim v p ↔ p = 0 ∧ D.weakDiv *ᵥ v = 0 ∧ D.dd1 *ᵥ v = lam • v) ∧
      (D.cavityQ *ᵥ Sum.elim v p = lam • D.cavityP *ᵥ Sum.elim v p → v ≠ 0 ∧ 0 ≤ lam) := by
  obtain ⟨m0, m1, m2, m3⟩ := C31_mass_matrices_definite h
  have hm : ∀ z : Fin D.m1 → ℝ, D.M1⁻¹ *ᵥ (D.M1 *ᵥ z) = z := fun z => by rw [mulVec_mulVec, m1.inv_mul, one_mulVec]
  have hC : D.weakDiv *ᵥ v = 0 → D.doubleCurl *ᵥ v = D.M1 *ᵥ (D.dd1 *ᵥ v) := by
    intro hw
    unfold doubleCurl
    rw [← mulVec_mulVec, add_mulVec, ← mulVec_mulVec, hw, mulVec_zero, add_zero]
  have key : D.cavityQ *ᵥ Sum.elim v p = lam • D.cavityP *ᵥ Sum.elim v p ↔ p = 0 ∧ D.weakDiv *ᵥ v = 0 ∧ D.dd1 *ᵥ v = lam • v := by
    rw [C94_saddle_point h]
    constructor
    · rintro ⟨e1, e2, e3⟩
      refine ⟨hg p e2, e1, ?_⟩
      rw [hC e1] at e3
      have := congrArg (fun z => D.M1⁻¹ *ᵥ z) e3
      beta_reduce at this
      rwa [hm, mulVec_smul, hm] at this
    · rintro ⟨rfl, e1, e3⟩
      refine ⟨e1, mulVec_zero _, ?_⟩
      rw [hC e1, e3, mulVec_smul]
  refine ⟨key, fun e => ?_⟩
  obtain ⟨e1, e2, e3⟩ := key.1 e
  have hv : v ≠ 0 := by
    rcases hz with hz | hz
    · exact hz
    · exact absurd e1 hz
  refine ⟨hv, ?_⟩
  have hpos := m1.2 v hv
  have h2 := (C79_double_curl h).2.1.2 v
  rw [((C94_saddle_point h lam v p).1 e).2.2, dotProduct_smul, smul_eq_mul] at h2
  by_contra hneg
  exact absurd h2 (not_le.2 (mul_neg_of_neg_of_pos (not_le.1 hneg) hpos))

/-- **C94 (finding)** if there is a scalar function without gradient (no Dirichlet conditions, or more radial than poloidal splines on polar sequences), the matrix pencil is singular: every
number `λ` is an eigenvalue, and what `eig` returns means nothing. -/
theorem C94_singular_pencil (h : Admissible ns ps q types F polar dirichlet D) (p : Fin D.m0 → ℝ) (hp : p ≠ 0) (hg : D.strongGrad *ᵥ p = 0) (lam : ℝ) :
    Sum.elim (0 : Fin D.m1 → ℝ) p ≠ 0 ∧ D.cavityQ *ᵥ Sum.elim 0 p = lam • D.cavityP *ᵥ Sum.elim 0 p := by
  refine ⟨fun e => hp (funext fun i => congrFun e (.inr i)), (C94_saddle_point h lam 0 p).2 ⟨mulVec_zero _, hg, ?_⟩⟩
  rw [mulVec_zero, mulVec_zero, smul_zero]

/-- **C94** taking real parts of the eigenvalues loses nothing: every complex solution has a real non-negative eigenvalue. -/
theorem C94_eigenvalues_real (h : Admissible ns ps q types F polar dirichlet D) (hg : ∀ p, D.strongGrad *ᵥ p = 0 → p = 0) (lam : ℂ) (v : Fin D.m1 → ℂ) (p : Fin D.m0 → ℂ)
    (hz : v ≠ 0 ∨ p ≠ 0) (e : D.cavityQ.map Complex.ofReal *ᵥ Sum.elim v p = lam • D.cavityP.map Complex.ofReal *ᵥ Sum.elim v p) :
    p = 0 ∧ v ≠ 0 ∧ lam.im = 0 ∧ 0 ≤ lam.re := by
  obtain ⟨m0, m1, m2, m3⟩ := C31_mass_matrices_definite h
  obtain ⟨d0, -, -, w0, -, -⟩ := D_eq h
  have mm : ∀ {a b c : Nat} (A : Matrix (Fin a) (Fin b) ℝ) (B : Matrix (Fin b) (Fin c) ℝ),
      (A * B).map Complex.ofReal = A.map Complex.ofReal * B.map Complex.ofReal := fun A B => Matrix.map_mul (f := Complex.ofRealHom)
  have m00 : ∀ {a b : Nat}, (0 : Matrix (Fin a) (Fin b) ℝ).map Complex.ofReal = 0 := fun {a b} => by ext i j; simp
  have hQ : D.cavityQ.map Complex.ofReal *ᵥ Sum.elim v p =
      Sum.elim (D.doubleCurl.map Complex.ofReal *ᵥ v + D.D0.map Complex.ofReal *ᵥ p) (D.D0ᵀ.map Complex.ofReal *ᵥ v) := by
    unfold cavityQ
    rw [fromBlocks_map, fromBlocks_mulVec, m00]
    simp
  have hP : lam • D.cavityP.map Complex.ofReal *ᵥ Sum.elim v p = Sum.elim (lam • D.M1.map Complex.ofReal *ᵥ v) 0 := by
    unfold cavityP
    rw [fromBlocks_map, fromBlocks_mulVec, m00, m00, m00]
    simp only [zero_mulVec, add_zero, Sum.elim_comp_inl, Sum.elim_comp_inr]
    funext i
    rcases i with i | i <;> simp
  rw [hQ, hP, Sum.elim_eq_iff] at e
  obtain ⟨e1, e2⟩ := e
  have t1 : D.strongGradᵀ * D.M1 = D.D0ᵀ := by rw [d0, transpose_mul, m1.1]
  have t2 : D.strongGradᵀ * D.doubleCurl = 0 := by
    have hc : D.doubleCurl * D.strongGrad = 0 := by
      refine Matrix.ext_of_mulVec_single fun i => ?_
      rw [← mulVec_mulVec, zero_mulVec, (C79_double_curl h).2.2, mulVec_mulVec, (C33_exactness h).1, zero_mulVec]
    have := congrArg Matrix.transpose hc
    rwa [transpose_mul, (C79_double_curl h).2.1.1, transpose_zero] at this
  have e3 := congrArg (fun z => D.strongGradᵀ.map Complex.ofReal *ᵥ z) e1
  beta_reduce at e3
  rw [mulVec_add, mulVec_smul, mulVec_mulVec, mulVec_mulVec, mulVec_mulVec, ← mm, ← mm, ← mm, t1, t2, e2, m00, zero_mulVec, zero_add, smul_zero] at e3
  have split : ∀ r : Fin D.m0 → ℝ, (D.strongGradᵀ * D.D0) *ᵥ r = 0 → r = 0 := by
    intro r hr
    refine hg r (m1.eq_zero ?_)
    rw [mulVec_dot, mulVec_mulVec, mulVec_mulVec, Matrix.mul_assoc, ← d0, hr, dotProduct_zero]
  have hp0 : p = 0 := by
    have a1 := split (fun i => (p i).re) (by
      funext i
      have := congrArg Complex.re (congrFun e3 i)
      simpa [mulVec, dotProduct] using this)
    have a2 := split (fun i => (p i).im) (by
      funext i
      have := congrArg Complex.im (congrFun e3 i)
      simpa [mulVec, dotProduct] using this)
    funext i
    exact Complex.ext (congrFun a1 i) (congrFun a2 i)
  have hv : v ≠ 0 := by
    rcases hz with hz | hz
    · exact hz
    · exact absurd hp0 hz
  rw [hp0, mulVec_zero, add_zero] at e1
  exact ⟨hp0, hv, complex_eig (C79_double_curl h).2.1 m1 lam v hv e1⟩

/-- **C94** the cavity of the script (polar, Dirichlet conditions, at least as many poloidal as radial splines): all eigenvalues are positive, so there are no spurious zero
modes, and they are those of the double curl after the first `m0`, `m1 - m0` in number. -/
theorem C94_cavity_spectrum (h : Admissible ns ps q types F true true D) (hr : ns.1 ≤ ns.2.1) :
    (∀ (lam : ℝ) v p, (v ≠ 0 ∨ p ≠ 0) → D.cavityQ *ᵥ Sum.elim v p = lam • D.cavityP *ᵥ Sum.elim v p → 0 < lam ∧ p = 0 ∧ D.weakDiv *ᵥ v = 0 ∧ D.dd1 *ᵥ v = lam • v) ∧
    ∀ (w : Fin D.m1 → ℝ) (V : Matrix (Fin D.m1) (Fin D.m1) ℝ), IsGEigh D.doubleCurl D.M1 w V →
      ∀ k, D.cavityQ *ᵥ Sum.elim (V.col k) 0 = w k • D.cavityP *ᵥ Sum.elim (V.col k) 0 ↔ D.m0 ≤ k.1 := by
  obtain ⟨a, b, c, _⟩ := h.polar rfl
  have ty : Toroidal types := ⟨a, by rw [b]; decide, c⟩
  obtain ⟨m0, m1, m2, m3⟩ := C31_mass_matrices_definite h
  have inj0 : ∀ p, D.strongGrad *ᵥ p = 0 → p = 0 := by
    intro p hp
    have hu := (C73_laplacians_invertible_iff h ty).1.2 ⟨rfl, fun _ => hr⟩
    have h0 : D.dd0 *ᵥ p = 0 := ((C34_kernels_are_harmonic h).1 p).2 hp
    have := congrArg (fun z => D.dd0⁻¹ *ᵥ z) h0
    beta_reduce at this
    rwa [mulVec_mulVec, nonsing_inv_mul _ hu, one_mulVec, mulVec_zero] at this
  have inj1 : ∀ v, D.dd1 *ᵥ v = 0 → v = 0 := by
    intro v h0
    have hu := (C73_laplacians_invertible_iff h ty).2.1.2 ⟨rfl, rfl, hr⟩
    have := congrArg (fun z => D.dd1⁻¹ *ᵥ z) h0
    beta_reduce at this
    rwa [mulVec_mulVec, nonsing_inv_mul _ hu, one_mulVec, mulVec_zero] at this
  refine ⟨fun lam v p hv e => ?_, fun w V hV k => ?_⟩
  · obtain ⟨k1, k2⟩ := C94_modes h inj0 lam v p hv
    obtain ⟨hv0, hl⟩ := k2 e
    obtain ⟨e1, e2, e3⟩ := k1.1 e
    refine ⟨lt_of_le_of_ne hl fun hl0 => hv0 (inj1 v ?_), e1, e2, e3⟩
    rw [e3, ← hl0, zero_smul]
  · obtain ⟨n1, n2⟩ := C79_double_curl_kernel h ty hV
    have n3 := n2 k
    have cb : codeBetti true true ns.1 ns.2.1 = (0, 0, 1, 1) := by simp only [codeBetti]; rw [if_pos hr]
    rw [cb] at n3
    dsimp only at n3
    have hne : V.col k ≠ 0 := by
      intro e
      have := hV.col_dot k k
      rw [e, if_pos rfl, zero_dotProduct] at this
      exact zero_ne_one this
    constructor
    · intro e
      by_contra hk
      have w0 : w k = 0 := n3.2 (by omega)
      obtain ⟨k1, k2⟩ := C94_modes h inj0 (w k) (V.col k) 0 (.inl hne)
      obtain ⟨_, _, e3⟩ := k1.1 e
      exact hne (inj1 _ (by rw [e3, w0, zero_smul]))
    · intro hk
      have w0 : w k ≠ 0 := fun e => by have := n3.1 e; omega
      have e := hV.col k
      refine (C94_saddle_point h _ _ _).2 ⟨(C79_modes h (w k) w0 _ e).1, mulVec_zero _, e⟩

/-- **C94 (finding)** with more radial than poloidal splines the pencil of the script is singular. -/
theorem C94_cavity_singular (h : Admissible ns ps q types F true true D) (hs : ns.2.1 < ns.1) :
    ∃ p, p ≠ 0 ∧ ∀ lam : ℝ, D.cavityQ *ᵥ Sum.elim 0 p = lam • D.cavityP *ᵥ Sum.elim 0 p := by
  have hu := (C73_polar_dirichlet_singular h hs).1
  rw [isUnit_iff_ne_zero, not_not] at hu
  obtain ⟨p, hp, e⟩ := exists_mulVec_eq_zero_iff.2 hu
  exact ⟨p, hp, fun lam => (C94_singular_pencil h p hp (((C34_kernels_are_harmonic h).1 p).1 e) lam).2⟩

end

/-! ## The hypotheses can be met -/

/-- The script's own resolution: a spectrum exists and the theorem applies to it. -/
example : ∃ D, Admissible (15, 15, 1) (3, 3, 0) 8 ("clamped", "periodic", "constant") (fun y => y) true true D ∧
    ∃ w V, IsGEigh D.doubleCurl D.M1 w V := by
  obtain ⟨D, h⟩ : ∃ D, Admissible (15, 15, 1) (3, 3, 0) 8 ("clamped", "periodic", "constant") (fun y => y) true true D :=
    Admissible.exists _ _ _ (by norm_num) (by unfold DirOK; norm_num) (by unfold DirOK; norm_num) (by unfold DirOK; norm_num)
      (by intro _; simp) fun x => by rw [jacobianDeterminant_id]; norm_num
  exact ⟨D, h, exists_geigh (C79_double_curl h).2.1.1 (C31_mass_matrices_definite h).2.1⟩

/-- Mode numbers as in the script, with roots `n + m` (TE) and `n + m + 1/2` (TM). -/
example : let root : Bool → Int → Int → ℝ := fun b n m => n + m + if b then 0 else 1 / 2
    let zeros : Bool → Int → Nat → Option (List ℝ) := fun b n M => some ((List.range M).map fun i : Nat => root b n ((i : Int) + 1))
    GivesRoots (fun _ => true) (root true) (zeros true) ∧ GivesRoots (fun _ => true) (root false) (zeros false) ∧
      ∀ x : Bool × Int × Int × Int, 1 ≤ x.2.2.1 → (|x.2.1| ∉ ([0, 1, 2] : List Int) ∨ x.2.2.1 ∉ ([1, 2, 3] : List Int) ∨ |x.2.2.2| ∉ ([0] : List Int)) →
        16 ≤ cavityMode root 1 1 x := by
  refine ⟨fun n _ M => rfl, fun n _ M => rfl, ?_⟩
  rintro ⟨b, n, m, k⟩ hm hor
  dsimp only at hm hor ⊢
  unfold cavityMode
  dsimp only
  rw [div_one, div_one]
  have hn : (0 : ℝ) ≤ ((|n| : Int) : ℝ) := by exact_mod_cast abs_nonneg n
  have hm1 : (1 : ℝ) ≤ (m : ℝ) := by exact_mod_cast hm
  have hb : (0 : ℝ) ≤ (if b = true then 0 else 1 / 2) := by split_ifs <;> norm_num
  rcases hor with h1 | h1 | h1
  · have : (3 : ℝ) ≤ ((|n| : Int) : ℝ) := by
      have h0 := abs_nonneg n
      simp only [List.mem_cons, List.not_mem_nil, or_false, not_or] at h1
      have : 3 ≤ |n| := by omega
      exact_mod_cast this
    nlinarith [sq_nonneg (2 * Real.pi * (k : ℝ))]
  · have : (4 : ℝ) ≤ (m : ℝ) := by
      simp only [List.mem_cons, List.not_mem_nil, or_false, not_or] at h1
      have : 4 ≤ m := by omega
      exact_mod_cast this
    nlinarith [sq_nonneg (2 * Real.pi * (k : ℝ))]
  · have hk : (1 : ℝ) ≤ (k : ℝ) ^ 2 := by
      have : k ≠ 0 := fun e => h1 (by rw [e]; simp)
      have : 1 ≤ k ^ 2 := by have := Int.one_le_abs this; nlinarith [sq_abs k]
      exact_mod_cast this
    have hp : (9 : ℝ) ≤ Real.pi ^ 2 := by nlinarith [Real.pi_gt_three]
    have : (2 * Real.pi * (k : ℝ)) ^ 2 = 4 * Real.pi ^ 2 * (k : ℝ) ^ 2 := by ring
    rw [this]
    have : 9 * 1 ≤ Real.pi ^ 2 * (k : ℝ) ^ 2 := mul_le_mul hp hk (by norm_num) (by positivity)
    nlinarith [sq_nonneg (((|n| : Int) : ℝ) + m + if b = true then 0 else 1 / 2)]

/-- Tables of roots `n + m` (TE) and `n + m + 1/2` (TM), with which the mode numbers of the script satisfy the hypotheses of
`C94_table`, `C94_complete_below`, `C94_raises_iff` and `C94_radial_zero_accepted`. -/
noncomputable def caseRoot (b : Bool) (n m : Int) : ℝ := n + m + if b then 0 else 1 / 2

noncomputable def caseZeros (b : Bool) (n : Int) (M : Nat) : Option (List ℝ) := some ((List.range M).map fun i : Nat => caseRoot b n ((i : Int) + 1))

theorem caseZeros_ok (b : Bool) : GivesRoots (fun _ => true) (caseRoot b) (caseZeros b) := fun n _ M => rfl

example := C94_table (found := fun _ _ => true) (caseZeros_ok true) (caseZeros_ok false) (nv := [0, 1, 2]) (mv := [1, 2, 3]) (kv := [0, 1]) (by decide) (by decide) (by decide)
  (by decide) (by decide) (by decide) (a := 1) (h := 2) (by norm_num) (by norm_num)
example := C94_raises_iff (found := fun _ _ => true) (caseZeros_ok true) (caseZeros_ok false) [0, 1, 2] [0, 3] [0, 1] 1 2
example := C94_radial_zero_accepted (found := fun _ _ => true) (caseZeros_ok true) (caseZeros_ok false) (nv := [0, 1, 2]) (kv := [0, 1]) (by decide) (by decide) (M := 3) (by decide)
  (a := 1) (h := 2) (by norm_num) (by norm_num)
example := C94_rejects (caseZeros true) (caseZeros false) [0, 1] [1, 2] [0] 1 (-2) (by decide) (Or.inr (Or.inl (by norm_num)))

/-- Case of `C94_check`: one computed eigenvalue within the tolerance. -/
example : checkEigenvalues [5.01] [3, 5] 0.1 = some true :=
  (C94_check (by simp) (by simp) _ _).mpr (by
    intro e he
    rw [List.mem_singleton] at he
    exact ⟨5, by simp, by rw [he, abs_of_pos (by norm_num)]; norm_num⟩)

/-- Case of `C94_saddle_point`, `C94_modes`, `C94_eigenvalues_real` and `C94_cavity_spectrum`: the standard case. -/
example (polar dirichlet : Bool) := C94_saddle_point (Case.adm polar dirichlet)

theorem case_grad_injective (p : Fin (Case.D true true).m0 → ℝ) (hp : (Case.D true true).strongGrad *ᵥ p = 0) : p = 0 := by
  have h := Case.adm true true
  have hu : IsUnit ((Case.D true true).M0 * (Case.D true true).dd0).det :=
    (C78_poisson_wellposed_iff h ⟨rfl, by decide, by decide⟩).1.mpr ⟨rfl, fun _ => by norm_num⟩
  have e : ((Case.D true true).M0 * (Case.D true true).dd0) *ᵥ p = 0 := by
    rw [← mulVec_mulVec, ((C34_kernels_are_harmonic h).1 p).mpr hp, mulVec_zero]
  have := congrArg (fun v => ((Case.D true true).M0 * (Case.D true true).dd0)⁻¹ *ᵥ v) e
  simpa [mulVec_mulVec, nonsing_inv_mul _ hu] using this

example := C94_modes (Case.adm true true) case_grad_injective
example := C94_eigenvalues_real (Case.adm true true) case_grad_injective
example := C94_cavity_spectrum (Case.adm true true) (by norm_num)

/-- Case of `C94_singular_pencil`: without Dirichlet conditions the constants have gradient zero. -/
example (lam : ℝ) : ∃ p : Fin (Case.D false false).m0 → ℝ, p ≠ 0 ∧ (Case.D false false).cavityQ *ᵥ Sum.elim 0 p = lam • (Case.D false false).cavityP *ᵥ Sum.elim 0 p := by
  have h := Case.adm false false
  have hb : Module.finrank ℝ (LinearMap.ker (Case.D false false).dd0.mulVecLin) = 1 := (C73_harmonic_dimensions h ⟨rfl, by decide, by decide⟩).1
  obtain ⟨p, hp, hne⟩ := (Submodule.ne_bot_iff _).mp (fun hbot : LinearMap.ker (Case.D false false).dd0.mulVecLin = ⊥ => by rw [hbot] at hb; simp at hb)
  have hg : (Case.D false false).strongGrad *ᵥ p = 0 := ((C34_kernels_are_harmonic h).1 p).mp (by simpa using hp)
  exact ⟨p, hne, (C94_singular_pencil h p hne hg lam).2⟩

end Mrx.Props
