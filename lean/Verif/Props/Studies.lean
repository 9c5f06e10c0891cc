import Verif.Model.Studies
import Verif.Props.Resolution
import Verif.Props.Poisson
import Verif.Props.Manufactured
import Verif.Props.Splines2
import Mathlib.Algebra.BigOperators.Intervals
import Mathlib.Data.List.GetD

/-!
# C110: convergence studies
-/

namespace Mrx.Props

open Mrx Mrx.Studies Spec DeRham Finset Matrix Real

set_option linter.unusedSectionVars false
set_option linter.unusedVariables false

/-! ## Specification -/

/-- The `k`-th pair of a study, counted row by row: `ns` in the outer loop, `ps` in the inner one. -/
def studyArgs (ns ps : List Nat) (k : Nat) : Nat × Nat := (ns.getD (k / ps.length) 0, ps.getD (k % ps.length) 0)

/-- The outcome of the `k`-th call of `get_err` in a whole study (two passes). -/
def studyCall (call : Nat → Nat → Nat → Except String ℝ) (ns ps : List Nat) (k : Nat) : Except String ℝ :=
  call k (studyArgs ns ps (k % (ns.length * ps.length))).1 (studyArgs ns ps (k % (ns.length * ps.length))).2

/-- A table with `a` rows of `b` entries. -/
def Shaped (a b : Nat) (t : Grid2) : Prop := t.length = a ∧ ∀ row ∈ t, row.length = b

/-! ## Tables -/

theorem shaped_zeros (a b : Nat) : Shaped a b (zeros a b) := by
  refine ⟨by simp [zeros], fun row hr => ?_⟩
  rw [zeros, List.mem_replicate] at hr
  rw [hr.2, List.length_replicate]

theorem shaped_setEntry {a b : Nat} {t : Grid2} (h : Shaped a b t) (i j : Nat) (v : ℝ) : Shaped a b (setEntry t i j v) := by
  refine ⟨by rw [setEntry, List.length_modify]; exact h.1, fun row hr => ?_⟩
  rw [setEntry, List.mem_iff_getElem] at hr
  obtain ⟨k, hk, rfl⟩ := hr
  rw [List.length_modify] at hk
  rw [List.getElem_modify]
  split
  · rw [List.length_set]; exact h.2 _ (List.getElem_mem _)
  · exact h.2 _ (List.getElem_mem _)

theorem entry_setEntry_self {a b : Nat} {t : Grid2} (h : Shaped a b t) {i j : Nat} (hi : i < a) (hj : j < b) (v : ℝ) :
    entry (setEntry t i j v) i j = v := by
  have hi' : i < t.length := h.1.symm ▸ hi
  have hl : (t[i]).length = b := h.2 _ (List.getElem_mem hi')
  have e : (setEntry t i j v).getD i [] = (t[i]).set j v := by
    rw [List.getD_eq_getElem _ _ (by rw [setEntry, List.length_modify]; exact hi')]
    simp [setEntry]
  rw [entry, e, List.getD_eq_getElem _ _ (by rw [List.length_set, hl]; exact hj)]
  simp

theorem entry_setEntry_ne (t : Grid2) {i j i' j' : Nat} (hne : (i, j) ≠ (i', j')) (v : ℝ) : entry (setEntry t i j v) i' j' = entry t i' j' := by
  by_cases hi : i = i'
  · subst hi
    have hj : j ≠ j' := fun e => hne (by rw [e])
    by_cases hl : i < t.length
    · have e : (setEntry t i j v).getD i [] = (t[i]).set j v := by
        rw [List.getD_eq_getElem _ _ (by rw [setEntry, List.length_modify]; exact hl)]
        simp [setEntry]
      rw [entry, entry, e, List.getD_eq_getElem _ _ hl]
      simp only [List.getD_eq_getElem?_getD, List.getElem?_set_ne hj]
    · rw [entry, entry]
      have e : (setEntry t i j v).getD i [] = [] := by
        rw [List.getD_eq_default]; rw [setEntry, List.length_modify]; omega
      rw [e, List.getD_eq_default (n := i) t _ (by omega)]
  · have e : (setEntry t i j v).getD i' [] = t.getD i' [] := by
      simp only [setEntry, List.getD_eq_getElem?_getD, List.getElem?_modify, hi, if_false]
      cases t[i']? <;> simp
    rw [entry, entry, e]

/-! ## Pairs -/

theorem pairs_length (ns ps : List Nat) : (pairs ns ps).length = ns.length * ps.length := by
  simp [pairs, List.length_flatMap]

/-- The pairs with the row counter started at `s`. -/
def pairsFrom (s : Nat) (ns ps : List Nat) : List ((Nat × Nat) × (Nat × Nat)) :=
  (ns.zipIdx s).flatMap fun ni => ps.zipIdx.map fun pj => ((ni.2, pj.2), (ni.1, pj.1))

theorem pairsFrom_getElem (ps : List Nat) (ns : List Nat) (s k : Nat) (hk : k < ns.length * ps.length) :
    (pairsFrom s ns ps)[k]? = some ((s + k / ps.length, k % ps.length), studyArgs ns ps k) := by
  induction ns generalizing s k with
  | nil => simp at hk
  | cons n ns ih =>
    have hb : 0 < ps.length := by
      rcases Nat.eq_zero_or_pos ps.length with h0 | h0
      · rw [h0] at hk; simp at hk
      · exact h0
    have e : pairsFrom s (n :: ns) ps = (ps.zipIdx.map fun pj => ((s, pj.2), (n, pj.1))) ++ pairsFrom (s + 1) ns ps := by
      simp [pairsFrom, List.zipIdx_cons]
    rw [e]
    by_cases hlt : k < ps.length
    · rw [List.getElem?_append_left (by simpa using hlt), studyArgs, Nat.div_eq_of_lt hlt, Nat.mod_eq_of_lt hlt]
      simp [hlt]
    · obtain ⟨m, rfl⟩ : ∃ m, k = m + ps.length := ⟨k - ps.length, by omega⟩
      have hm : m < ns.length * ps.length := by
        rw [List.length_cons, Nat.succ_mul] at hk; omega
      rw [List.getElem?_append_right (by simp)]
      simp only [List.length_map, List.length_zipIdx, Nat.add_sub_cancel]
      rw [ih (s + 1) m hm, studyArgs, studyArgs, Nat.add_div_right _ hb, Nat.add_mod_right]
      simp only [List.getD_cons_succ, Nat.succ_eq_add_one]
      congr 3
      omega

theorem pairs_getElem (ns ps : List Nat) (k : Nat) (hk : k < ns.length * ps.length) :
    (pairs ns ps)[k]? = some ((k / ps.length, k % ps.length), studyArgs ns ps k) := by
  have h := pairsFrom_getElem ps ns 0 k hk
  rw [Nat.zero_add] at h
  exact h

theorem studyArgs_mul_add (ns ps : List Nat) (i j : Nat) (hj : j < ps.length) :
    studyArgs ns ps (i * ps.length + j) = (ns.getD i 0, ps.getD j 0) := by
  have hb : 0 < ps.length := by omega
  rw [studyArgs, Nat.mul_comm, Nat.mul_add_div hb, Nat.div_eq_of_lt hj, Nat.mul_add_mod, Nat.mod_eq_of_lt hj, Nat.add_zero]

/-! ## One pass -/

section
variable {call : Nat → Nat → Nat → Except String ℝ} {clock : Nat → ℝ} {store : Bool}

theorem pass_ok_iff (L : List ((Nat × Nat) × (Nat × Nat))) (c : Nat) (err times : Grid2) :
    (∃ r, pass call clock store L c err times = .ok r) ↔
      ∀ k (hk : k < L.length), ∃ v, call (c + k) L[k].2.1 L[k].2.2 = .ok v := by
  induction L generalizing c err times with
  | nil => simp [pass]
  | cons a L ih =>
    obtain ⟨⟨i, j⟩, ⟨n, p⟩⟩ := a
    cases hc : call c n p with
    | error e =>
      simp only [pass, hc]
      constructor
      · rintro ⟨r, hr⟩; exact absurd hr (by simp)
      · intro h
        obtain ⟨v, hv⟩ := h 0 (by simp)
        simp only [Nat.add_zero, List.getElem_cons_zero] at hv
        rw [hc] at hv
        exact absurd hv (by simp)
    | ok v =>
      simp only [pass, hc]
      rw [ih]
      constructor
      · intro h k hk
        cases k with
        | zero => exact ⟨v, by simpa using hc⟩
        | succ k =>
          obtain ⟨w, hw⟩ := h k (by simpa using hk)
          refine ⟨w, ?_⟩
          simpa [Nat.add_assoc, Nat.add_comm 1] using hw
      · intro h k hk
        obtain ⟨w, hw⟩ := h (k + 1) (by simpa using hk)
        refine ⟨w, ?_⟩
        simpa [Nat.add_assoc, Nat.add_comm 1] using hw

theorem pass_error_iff (L : List ((Nat × Nat) × (Nat × Nat))) (c : Nat) (err times : Grid2) (e : String) :
    pass call clock store L c err times = .error e ↔
      ∃ k, ∃ hk : k < L.length, call (c + k) L[k].2.1 L[k].2.2 = .error e ∧
        ∀ m (hm : m < k), ∃ v, call (c + m) (L[m]'(by omega)).2.1 (L[m]'(by omega)).2.2 = .ok v := by
  induction L generalizing c err times with
  | nil => simp [pass]
  | cons a L ih =>
    obtain ⟨⟨i, j⟩, ⟨n, p⟩⟩ := a
    cases hc : call c n p with
    | error e' =>
      simp only [pass, hc]
      constructor
      · intro he
        refine ⟨0, by simp, ?_, fun m hm => absurd hm (by omega)⟩
        simpa [hc] using he
      · rintro ⟨k, hk, hk', hm⟩
        cases k with
        | zero => simpa [hc] using hk'
        | succ k =>
          obtain ⟨v, hv⟩ := hm 0 (by omega)
          simp only [Nat.add_zero, List.getElem_cons_zero] at hv
          rw [hc] at hv
          exact absurd hv (by simp)
    | ok v =>
      simp only [pass, hc]
      rw [ih]
      constructor
      · rintro ⟨k, hk, hk', hm⟩
        refine ⟨k + 1, by simpa using hk, by simpa [Nat.add_assoc, Nat.add_comm 1] using hk', fun m hm' => ?_⟩
        cases m with
        | zero => exact ⟨v, by simpa using hc⟩
        | succ m =>
          obtain ⟨w, hw⟩ := hm m (by omega)
          exact ⟨w, by simpa [Nat.add_assoc, Nat.add_comm 1] using hw⟩
      · rintro ⟨k, hk, hk', hm⟩
        cases k with
        | zero =>
          simp only [Nat.add_zero, List.getElem_cons_zero] at hk'
          rw [hc] at hk'
          exact absurd hk' (by simp)
        | succ k =>
          refine ⟨k, by simpa using hk, by simpa [Nat.add_assoc, Nat.add_comm 1] using hk', fun m hm' => ?_⟩
          obtain ⟨w, hw⟩ := hm (m + 1) (by omega)
          exact ⟨w, by simpa [Nat.add_assoc, Nat.add_comm 1] using hw⟩

/-- Entries that are not visited stay. -/
theorem pass_keeps (L : List ((Nat × Nat) × (Nat × Nat))) (c : Nat) (err times err' times' : Grid2) (c' : Nat)
    (h : pass call clock store L c err times = .ok (err', times', c')) (i j : Nat) (hn : (i, j) ∉ L.map Prod.fst) :
    entry err' i j = entry err i j ∧ entry times' i j = entry times i j := by
  induction L generalizing c err times with
  | nil =>
    simp only [pass, Except.ok.injEq, Prod.mk.injEq] at h
    rw [h.1, h.2.1]; exact ⟨rfl, rfl⟩
  | cons a L ih =>
    obtain ⟨⟨i', j'⟩, ⟨n, p⟩⟩ := a
    cases hc : call c n p with
    | error e => simp [pass, hc] at h
    | ok v =>
      simp only [pass, hc] at h
      simp only [List.map_cons, List.mem_cons, not_or] at hn
      have hne : (i', j') ≠ (i, j) := fun e => hn.1 e.symm
      obtain ⟨h1, h2⟩ := ih _ _ _ h hn.2
      refine ⟨h1.trans ?_, h2.trans (entry_setEntry_ne _ hne _)⟩
      cases store
      · rfl
      · exact entry_setEntry_ne _ hne _

theorem pass_spec {a b : Nat} (L : List ((Nat × Nat) × (Nat × Nat))) (c : Nat) (err times err' times' : Grid2) (c' : Nat)
    (h : pass call clock store L c err times = .ok (err', times', c')) (he : Shaped a b err) (ht : Shaped a b times)
    (hr : ∀ x ∈ L, x.1.1 < a ∧ x.1.2 < b) (hd : (L.map Prod.fst).Nodup) :
    c' = c + L.length ∧ Shaped a b err' ∧ Shaped a b times' ∧
    ∀ k (hk : k < L.length), ∃ v, call (c + k) L[k].2.1 L[k].2.2 = .ok v ∧
      entry err' L[k].1.1 L[k].1.2 = (if store then v else entry err L[k].1.1 L[k].1.2) ∧
      entry times' L[k].1.1 L[k].1.2 = clock (2 * (c + k) + 1) - clock (2 * (c + k)) := by
  induction L generalizing c err times with
  | nil =>
    simp only [pass, Except.ok.injEq, Prod.mk.injEq] at h
    obtain ⟨rfl, rfl, rfl⟩ := h
    exact ⟨rfl, he, ht, fun k hk => absurd hk (by simp)⟩
  | cons x L ih =>
    obtain ⟨⟨i, j⟩, ⟨n, p⟩⟩ := x
    cases hc : call c n p with
    | error e => simp [pass, hc] at h
    | ok v =>
      simp only [pass, hc] at h
      have hij := hr ((i, j), (n, p)) (by simp)
      have hd' := List.nodup_cons.mp hd
      have he' : Shaped a b (if store then setEntry err i j v else err) := by
        cases store
        · exact he
        · exact shaped_setEntry he _ _ _
      obtain ⟨h1, h2, h3, h4⟩ := ih _ _ _ h he' (shaped_setEntry ht _ _ _) (fun y hy => hr y (List.mem_cons_of_mem _ hy)) hd'.2
      refine ⟨by rw [h1, List.length_cons]; omega, h2, h3, fun k hk => ?_⟩
      cases k with
      | zero =>
        obtain ⟨k1, k2⟩ := pass_keeps L _ _ _ _ _ _ h i j hd'.1
        refine ⟨v, by simpa using hc, ?_, ?_⟩
        · simp only [List.getElem_cons_zero]
          rw [k1]
          cases store
          · rfl
          · exact entry_setEntry_self he hij.1 hij.2 v
        · simp only [List.getElem_cons_zero, Nat.add_zero]
          rw [k2, entry_setEntry_self ht hij.1 hij.2]
      | succ k =>
        have hk' : k < L.length := by simpa using hk
        obtain ⟨w, w1, w2, w3⟩ := h4 k hk'
        have hne : (i, j) ≠ (L[k].1.1, L[k].1.2) := fun e => hd'.1 (by
          simp only [e]
          exact List.mem_map_of_mem (List.getElem_mem hk'))
        have ec : c + 1 + k = c + (k + 1) := by omega
        rw [ec] at w1 w3
        refine ⟨w, by simpa using w1, ?_, by simpa using w3⟩
        simp only [List.getElem_cons_succ]
        rw [w2]
        cases store
        · rfl
        · rfl

theorem pairs_range (ns ps : List Nat) : ∀ x ∈ pairs ns ps, x.1.1 < ns.length ∧ x.1.2 < ps.length := by
  intro x hx
  obtain ⟨k, hk, rfl⟩ := List.mem_iff_getElem.mp hx
  have hk' : k < ns.length * ps.length := by rwa [pairs_length] at hk
  have e := pairs_getElem ns ps k hk'
  rw [List.getElem?_eq_getElem hk, Option.some.injEq] at e
  rw [e]
  have hb : 0 < ps.length := by
    rcases Nat.eq_zero_or_pos ps.length with h0 | h0
    · rw [h0] at hk'; simp at hk'
    · exact h0
  exact ⟨Nat.div_lt_of_lt_mul (by rwa [Nat.mul_comm] at hk'), Nat.mod_lt _ hb⟩

theorem pairs_get (ns ps : List Nat) (k : Nat) (hk : k < (pairs ns ps).length) :
    (pairs ns ps)[k] = ((k / ps.length, k % ps.length), studyArgs ns ps k) := by
  have e := pairs_getElem ns ps k (by rwa [pairs_length] at hk)
  rwa [List.getElem?_eq_getElem hk, Option.some.injEq] at e

theorem pairs_nodup (ns ps : List Nat) : ((pairs ns ps).map Prod.fst).Nodup := by
  rw [List.nodup_iff_injective_get]
  intro ⟨k, hk⟩ ⟨m, hm⟩ e
  simp only [List.length_map] at hk hm
  simp only [List.get_eq_getElem, List.getElem_map, pairs_get, Prod.mk.injEq] at e
  have : k = m := by
    rw [← Nat.div_add_mod k ps.length, ← Nat.div_add_mod m ps.length, e.1, e.2]
  exact Fin.ext this

/-! ## The study -/

variable {ns ps : List Nat} {r : Result}

theorem studyCall_first {k : Nat} (hk : k < ns.length * ps.length) :
    studyCall call ns ps k = call k (studyArgs ns ps k).1 (studyArgs ns ps k).2 := by
  rw [studyCall, Nat.mod_eq_of_lt hk]

theorem studyCall_second {k : Nat} (hk : k < ns.length * ps.length) :
    studyCall call ns ps (ns.length * ps.length + k) = call (ns.length * ps.length + k) (studyArgs ns ps k).1 (studyArgs ns ps k).2 := by
  rw [studyCall, Nat.add_mod_left, Nat.mod_eq_of_lt hk]

theorem run_inv (h : run call clock store ns ps = .ok r) : ∃ err, ∃ c₁ c₂ : Nat,
    pass call clock true (pairs ns ps) 0 (zeros ns.length ps.length) (zeros ns.length ps.length) = .ok (err, r.times, c₁) ∧
    pass call clock store (pairs ns ps) c₁ err (zeros ns.length ps.length) = .ok (r.err, r.times2, c₂) := by
  unfold run at h
  split at h
  · cases h
  · rename_i err times c h1
    split at h
    · cases h
    · rename_i err' times2 c2 h2
      obtain rfl := Except.ok.inj h
      exact ⟨err, c, c2, h1, h2⟩

theorem mul_add_lt {a b i j : Nat} (hi : i < a) (hj : j < b) : i * b + j < a * b :=
  calc i * b + j < i * b + b := by omega
    _ = (i + 1) * b := by rw [Nat.succ_mul]
    _ ≤ a * b := Nat.mul_le_mul_right _ hi

/-- **C110** the tables: three arrays with one row for each number of splines and one column for each degree. The entry `(i, j)` of the errors is what `get_err(ns[i], ps[j])` returned in the
second pass (in the first pass if the second one does not store it), and the times are the differences of the two clock readings around the call of this pair in the
first and the second pass. -/
theorem C110_table (h : run call clock store ns ps = .ok r) :
    Shaped ns.length ps.length r.err ∧ Shaped ns.length ps.length r.times ∧ Shaped ns.length ps.length r.times2 ∧
    ∀ i j, ∀ hi : i < ns.length, ∀ hj : j < ps.length, ∀ k, k = i * ps.length + j → ∀ N, N = ns.length * ps.length →
      ∃ v₁ v₂, call k ns[i] ps[j] = .ok v₁ ∧ call (N + k) ns[i] ps[j] = .ok v₂ ∧
        entry r.err i j = (if store then v₂ else v₁) ∧
        entry r.times i j = clock (2 * k + 1) - clock (2 * k) ∧ entry r.times2 i j = clock (2 * (N + k) + 1) - clock (2 * (N + k)) := by
  obtain ⟨err, c₁, c₂, h1, h2⟩ := run_inv h
  have z := shaped_zeros ns.length ps.length
  obtain ⟨a1, a2, a3, a4⟩ := pass_spec _ _ _ _ _ _ _ h1 z z (pairs_range ns ps) (pairs_nodup ns ps)
  obtain ⟨b1, b2, b3, b4⟩ := pass_spec _ _ _ _ _ _ _ h2 a2 z (pairs_range ns ps) (pairs_nodup ns ps)
  refine ⟨b2, a3, b3, fun i j hi hj k hk N hN => ?_⟩
  have hkN : k < (pairs ns ps).length := by rw [pairs_length, hk]; exact mul_add_lt hi hj
  obtain ⟨v₁, c1, c2, c3⟩ := a4 k hkN
  obtain ⟨v₂, d1, d2, d3⟩ := b4 k hkN
  have hb : 0 < ps.length := by omega
  have e1 : k / ps.length = i := by rw [hk, Nat.mul_comm, Nat.mul_add_div hb, Nat.div_eq_of_lt hj, Nat.add_zero]
  have e2 : k % ps.length = j := by rw [hk, Nat.mul_comm, Nat.mul_add_mod, Nat.mod_eq_of_lt hj]
  have e3 : studyArgs ns ps k = (ns[i], ps[j]) := by
    rw [hk, studyArgs_mul_add ns ps i j hj, List.getD_eq_getElem _ _ hi, List.getD_eq_getElem _ _ hj]
  have ec : c₁ = N := by rw [a1, pairs_length, hN, Nat.zero_add]
  simp only [pairs_get, e1, e2, e3] at c1 c2 c3 d1 d2 d3
  rw [Nat.zero_add] at c1 c3
  rw [ec] at d1 d3
  refine ⟨v₁, v₂, c1, d1, ?_, c3, d3⟩
  rw [d2, c2]
  cases store <;> rfl

/-- **C110** the calls are made in the order of the rows, twice, and the study returns exactly when none of them raises. -/
theorem C110_completes_iff : (∃ r, run call clock store ns ps = .ok r) ↔ ∀ k < 2 * (ns.length * ps.length), ∃ v, studyCall call ns ps k = .ok v := by
  have z := shaped_zeros ns.length ps.length
  constructor
  · rintro ⟨r, h⟩ k hk
    obtain ⟨err, c₁, c₂, h1, h2⟩ := run_inv h
    obtain ⟨a1, -⟩ := pass_spec _ _ _ _ _ _ _ h1 z z (pairs_range ns ps) (pairs_nodup ns ps)
    by_cases hlt : k < ns.length * ps.length
    · obtain ⟨v, hv⟩ := (pass_ok_iff _ _ _ _).mp ⟨_, h1⟩ k (by rwa [pairs_length])
      rw [pairs_get, Nat.zero_add] at hv
      exact ⟨v, by rw [studyCall_first hlt]; exact hv⟩
    · obtain ⟨m, rfl⟩ : ∃ m, k = ns.length * ps.length + m := ⟨k - ns.length * ps.length, by omega⟩
      have hm : m < ns.length * ps.length := by omega
      obtain ⟨v, hv⟩ := (pass_ok_iff _ _ _ _).mp ⟨_, h2⟩ m (by rwa [pairs_length])
      rw [pairs_get, a1, pairs_length, Nat.zero_add] at hv
      exact ⟨v, by rw [studyCall_second hm]; exact hv⟩
  · intro h
    have h1 : ∃ r, pass call clock true (pairs ns ps) 0 (zeros ns.length ps.length) (zeros ns.length ps.length) = .ok r := by
      refine (pass_ok_iff _ _ _ _).mpr fun k hk => ?_
      have hk' : k < ns.length * ps.length := by rwa [pairs_length] at hk
      obtain ⟨v, hv⟩ := h k (by omega)
      rw [studyCall_first hk'] at hv
      exact ⟨v, by rw [pairs_get, Nat.zero_add]; exact hv⟩
    obtain ⟨⟨err, times, c⟩, h1⟩ := h1
    obtain ⟨a1, -⟩ := pass_spec _ _ _ _ _ _ _ h1 z z (pairs_range ns ps) (pairs_nodup ns ps)
    have h2 : ∃ r, pass call clock store (pairs ns ps) c err (zeros ns.length ps.length) = .ok r := by
      refine (pass_ok_iff _ _ _ _).mpr fun k hk => ?_
      have hk' : k < ns.length * ps.length := by rwa [pairs_length] at hk
      obtain ⟨v, hv⟩ := h (ns.length * ps.length + k) (by omega)
      rw [studyCall_second hk'] at hv
      exact ⟨v, by rw [pairs_get, a1, pairs_length, Nat.zero_add]; exact hv⟩
    obtain ⟨⟨err', times2, c'⟩, h2⟩ := h2
    exact ⟨⟨err', times, times2⟩, by simp only [run, h1, h2]⟩

/-- **C110** otherwise it raises what the first failing call raises; nothing is returned, not even the finished part. -/
theorem C110_raises_iff (e : String) : run call clock store ns ps = .error e ↔
    ∃ k < 2 * (ns.length * ps.length), studyCall call ns ps k = .error e ∧ ∀ m < k, ∃ v, studyCall call ns ps m = .ok v := by
  have z := shaped_zeros ns.length ps.length
  have key : ∀ e', run call clock store ns ps = .error e' →
      ∃ k < 2 * (ns.length * ps.length), studyCall call ns ps k = .error e' ∧ ∀ m < k, ∃ v, studyCall call ns ps m = .ok v := by
    intro e' h
    unfold run at h
    split at h
    · rename_i e1 h1
      obtain rfl := Except.error.inj h
      obtain ⟨k, hk, h3, h4⟩ := (pass_error_iff _ _ _ _ _).mp h1
      have hk' : k < ns.length * ps.length := by rwa [pairs_length] at hk
      refine ⟨k, by omega, ?_, fun m hm => ?_⟩
      · rw [pairs_get, Nat.zero_add] at h3
        rw [studyCall_first hk']; exact h3
      · obtain ⟨v, hv⟩ := h4 m hm
        rw [pairs_get, Nat.zero_add] at hv
        exact ⟨v, by rw [studyCall_first (by omega)]; exact hv⟩
    · rename_i err times c h1
      obtain ⟨a1, -⟩ := pass_spec _ _ _ _ _ _ _ h1 z z (pairs_range ns ps) (pairs_nodup ns ps)
      rw [pairs_length, Nat.zero_add] at a1
      split at h
      · rename_i e2 h2
        obtain rfl := Except.error.inj h
        obtain ⟨k, hk, h3, h4⟩ := (pass_error_iff _ _ _ _ _).mp h2
        have hk' : k < ns.length * ps.length := by rwa [pairs_length] at hk
        refine ⟨ns.length * ps.length + k, by omega, ?_, fun m hm => ?_⟩
        · rw [pairs_get, a1] at h3
          rw [studyCall_second hk']; exact h3
        · by_cases hlt : m < ns.length * ps.length
          · obtain ⟨v, hv⟩ := (pass_ok_iff _ _ _ _).mp ⟨_, h1⟩ m (by rwa [pairs_length])
            rw [pairs_get, Nat.zero_add] at hv
            exact ⟨v, by rw [studyCall_first hlt]; exact hv⟩
          · obtain ⟨m', rfl⟩ : ∃ m', m = ns.length * ps.length + m' := ⟨m - ns.length * ps.length, by omega⟩
            obtain ⟨v, hv⟩ := h4 m' (by omega)
            rw [pairs_get, a1] at hv
            exact ⟨v, by rw [studyCall_second (by omega)]; exact hv⟩
      · cases h
  refine ⟨key e, ?_⟩
  rintro ⟨k, hk, h3, h4⟩
  cases hr : run call clock store ns ps with
  | ok r =>
    obtain ⟨v, hv⟩ := C110_completes_iff.mp ⟨r, hr⟩ k hk
    rw [hv] at h3; cases h3
  | error e' =>
    obtain ⟨k', hk', g3, g4⟩ := key e' hr
    rcases Nat.lt_trichotomy k k' with hlt | rfl | hlt
    · obtain ⟨v, hv⟩ := g4 k hlt
      rw [hv] at h3; cases h3
    · rw [h3] at g3
      rw [Except.error.inj g3]
    · obtain ⟨v, hv⟩ := h4 k' hlt
      rw [hv] at g3; cases g3

theorem sum_rows (f : Nat → ℝ) (a b : Nat) : ∑ i ∈ range a, ∑ j ∈ range b, f (i * b + j) = ∑ k ∈ range (a * b), f k := by
  induction a with
  | zero => simp
  | succ a ih => rw [sum_range_succ, ih, Nat.succ_mul, sum_range_add]

theorem sum_gaps {clock : Nat → ℝ} (hc : Monotone clock) (s N : Nat) :
    ∑ k ∈ range N, (clock (2 * (s + k) + 1) - clock (2 * (s + k))) ≤ clock (2 * (s + N)) - clock (2 * s) := by
  induction N with
  | zero => simp
  | succ N ih =>
    rw [sum_range_succ]
    have : clock (2 * (s + N) + 1) ≤ clock (2 * (s + (N + 1))) := hc (by omega)
    linarith

/-- **C110** with a clock that does not run backwards: no time is negative, and all of them together are at most the time that passes between the first reading and one after the last call. -/
theorem C110_times (h : run call clock store ns ps = .ok r) (hc : Monotone clock) :
    (∀ i < ns.length, ∀ j < ps.length, 0 ≤ entry r.times i j ∧ 0 ≤ entry r.times2 i j) ∧
    ∑ i ∈ range ns.length, ∑ j ∈ range ps.length, (entry r.times i j + entry r.times2 i j) ≤ clock (4 * (ns.length * ps.length)) - clock 0 := by
  obtain ⟨-, -, -, t⟩ := C110_table h
  have key : ∀ i < ns.length, ∀ j < ps.length,
      entry r.times i j = clock (2 * (0 + (i * ps.length + j)) + 1) - clock (2 * (0 + (i * ps.length + j))) ∧
      entry r.times2 i j = clock (2 * (ns.length * ps.length + (i * ps.length + j)) + 1) - clock (2 * (ns.length * ps.length + (i * ps.length + j))) := by
    intro i hi j hj
    obtain ⟨v1, v2, -, -, -, a, b⟩ := t i j hi hj _ rfl _ rfl
    exact ⟨by rw [a, Nat.zero_add], b⟩
  constructor
  · intro i hi j hj
    obtain ⟨a, b⟩ := key i hi j hj
    rw [a, b]
    exact ⟨sub_nonneg.mpr (hc (by omega)), sub_nonneg.mpr (hc (by omega))⟩
  · have e : ∑ i ∈ range ns.length, ∑ j ∈ range ps.length, (entry r.times i j + entry r.times2 i j) =
        ∑ k ∈ range (ns.length * ps.length), ((clock (2 * (0 + k) + 1) - clock (2 * (0 + k))) +
          (clock (2 * (ns.length * ps.length + k) + 1) - clock (2 * (ns.length * ps.length + k)))) := by
      rw [← sum_rows]
      refine sum_congr rfl fun i hi => sum_congr rfl fun j hj => ?_
      obtain ⟨a, b⟩ := key i (mem_range.mp hi) j (mem_range.mp hj)
      rw [a, b]
    rw [e, sum_add_distrib]
    have h1 := sum_gaps hc 0 (ns.length * ps.length)
    have h2 := sum_gaps hc (ns.length * ps.length) (ns.length * ps.length)
    have e4 : 2 * (ns.length * ps.length + ns.length * ps.length) = 4 * (ns.length * ps.length) := by omega
    rw [e4] at h2
    rw [Nat.zero_add, Nat.mul_zero] at h1
    linarith

end

/-- The call of a study whose error depends on the arguments only. -/
def fixed (g : Nat → Nat → Except String ℝ) : Nat → Nat → Nat → Except String ℝ := fun _ n p => g n p

/-- **C110** if `get_err` is deterministic, the study returns exactly when it succeeds on every pair, and then the table holds its values, whether or not the second pass stores them. -/
theorem C110_deterministic (g : Nat → Nat → Except String ℝ) (clock : Nat → ℝ) (store : Bool) (ns ps : List Nat) :
    ((∃ r, run (fixed g) clock store ns ps = .ok r) ↔ ∀ n ∈ ns, ∀ p ∈ ps, ∃ v, g n p = .ok v) ∧
    ∀ r, run (fixed g) clock store ns ps = .ok r → ∀ i j, ∀ hi : i < ns.length, ∀ hj : j < ps.length, g ns[i] ps[j] = .ok (entry r.err i j) := by
  constructor
  · constructor
    · rintro ⟨r, h⟩ n hn p hp
      obtain ⟨i, hi, rfl⟩ := List.mem_iff_getElem.mp hn
      obtain ⟨j, hj, rfl⟩ := List.mem_iff_getElem.mp hp
      obtain ⟨v, -, hv, -⟩ := (C110_table h).2.2.2 i j hi hj _ rfl _ rfl
      exact ⟨v, hv⟩
    · intro h
      refine C110_completes_iff.mpr fun k hk => ?_
      have hN : 0 < ns.length * ps.length := by omega
      have hb : 0 < ps.length := Nat.pos_of_ne_zero fun e => by rw [e, Nat.mul_zero] at hN; omega
      have hlt := Nat.mod_lt k hN
      have hi : k % (ns.length * ps.length) / ps.length < ns.length := Nat.div_lt_of_lt_mul (lt_of_lt_of_eq hlt (Nat.mul_comm _ _))
      have hj : k % (ns.length * ps.length) % ps.length < ps.length := Nat.mod_lt _ hb
      rw [studyCall, studyArgs, List.getD_eq_getElem _ _ hi, List.getD_eq_getElem _ _ hj]
      exact h _ (List.getElem_mem hi) _ (List.getElem_mem hj)
  · intro r h i j hi hj
    obtain ⟨v₁, v₂, h1, h2, h3, -⟩ := (C110_table h).2.2.2 i j hi hj _ rfl _ rfl
    have h1' : g ns[i] ps[j] = .ok v₁ := h1
    have h2' : g ns[i] ps[j] = .ok v₂ := h2
    rw [h3]
    cases store
    · exact h1'
    · exact h2'

/-- Case: two numbers of splines and two degrees, an error that is the product; the clock ticks once a reading. -/
example : ∃ r, run (fixed fun n p => .ok (n * p : ℝ)) (fun k => (k : ℝ)) true [4, 6] [1, 2] = .ok r ∧ entry r.err 1 0 = 6 ∧ entry r.times 1 0 = 1 := by
  obtain ⟨r, hr⟩ := (C110_deterministic (fun n p => .ok (n * p : ℝ)) (fun k => (k : ℝ)) true [4, 6] [1, 2]).1.mpr fun n _ p _ => ⟨_, rfl⟩
  obtain ⟨v₁, v₂, h1, h2, h3, h4, -⟩ := (C110_table hr).2.2.2 1 0 (by decide) (by decide) _ rfl _ rfl
  refine ⟨r, hr, ?_, ?_⟩
  · have := Except.ok.inj ((C110_deterministic _ _ _ _ _).2 r hr 1 0 (by decide) (by decide))
    rw [← this]
    norm_num
  · rw [h4]
    norm_num

/-- Case: the third call raises. -/
example : run (fun c _ _ => if c = 2 then .error "ValueError" else .ok 0) (fun k => (k : ℝ)) true [4, 6] [1, 2] = .error "ValueError" :=
  (C110_raises_iff "ValueError").mpr ⟨2, by decide, rfl, fun m hm => ⟨0, by rw [studyCall, if_neg (by omega)]⟩⟩

/-! ## The errors of the tutorials -/

/-- A quadrature point near `ζ = 0`. -/
theorem zeta_point {ns ps : Nat × Nat × Nat} {q : Nat} {types : String × String × String} {polar dirichlet : Bool} {F : V3 → V3} {D : DeRham}
    (h : Sizes ns ps q types polar) (hb : DeRham.mk? ns ps q types F polar dirichlet = .ok D) (hz : types.2.2 = "periodic") :
    ∃ x ∈ D.S.Q.x, x.2.2 = innermost ns.2.2 q := by
  have hS := Admissible.seq hb
  have hzD := h.z
  rw [hz] at hzD
  obtain ⟨m0, _, _, _, hQ⟩ := Seq.mk?_inv hS
  obtain ⟨_, _, s0, s1, s2, _⟩ := Form.mk?_inv m0
  have htens := Seq.rule_isTensor hQ
  unfold Quad.Rule.mk? at hQ
  split at hQ
  case h_2 => cases hQ
  rename_i rx ry rz hx' hy' hz'
  have hQ' := Except.ok.inj hQ
  have exx : D.S.Q.xx = rx.1 := by rw [← hQ']; rfl
  have exy : D.S.Q.xy = ry.1 := by rw [← hQ']; rfl
  have exz : D.S.Q.xz = rz.1 := by rw [← hQ']; rfl
  obtain ⟨x0, hx0⟩ := select_nonempty h.r h.q10 s0 hx'
  obtain ⟨y0, hy0⟩ := select_nonempty h.t h.q10 s1 hy'
  rw [hz] at s2
  rcases hzD with ⟨e, _⟩ | ⟨_, a, b, c, d, e⟩ | ⟨e, _⟩
  · exact absurd e (by decide)
  · obtain ⟨xs, ws, g1, g2, _, _, g3, _⟩ := C11_select_rule ns.2.2 ps.2.2 a "periodic" _ (Or.inr ⟨rfl, c, b, rfl⟩) _ s2 q (by omega) h.q10
    rw [g1] at hz'
    have hrz := Except.ok.inj hz'
    have hxs : xs = (Quad.compositeQuad (Jax.linspace01 ℝ (ns.2.2 + 1)) q).1 := congrArg Prod.fst g2
    obtain ⟨c1, -⟩ := composite_first (K := ℝ) (m := ns.2.2) (k := q) (by omega) (by omega) h.q10
    rw [← hxs] at c1
    rw [htens, exx, exy, exz, ← hrz]
    refine ⟨(x0, y0, innermost ns.2.2 q), ?_, rfl⟩
    simp only [List.mem_flatMap, List.mem_map]
    exact ⟨y0, hy0, x0, hx0, _, c1, rfl⟩
  · exact absurd e (by decide)

theorem polarU_pos {x : V3} (h0 : 0 < x 0) (h1 : x 0 < 1) : 0 < Manufactured.polarU x := by
  have hs : 0 < x 0 ^ 3 := by positivity
  have hlt : x 0 ^ 3 < 1 := pow_lt_one₀ h0.le h1 (by decide)
  have hl : 1 - (x 0 ^ 3)⁻¹ ≤ log (x 0 ^ 3) := one_sub_inv_le_log_of_pos hs
  rw [log_pow] at hl
  push_cast at hl
  have : x 0 ^ 3 * (1 - (x 0 ^ 3)⁻¹) ≤ x 0 ^ 3 * (3 * log (x 0)) := mul_le_mul_of_nonneg_left hl hs.le
  rw [mul_sub, mul_inv_cancel₀ hs.ne', mul_one] at this
  unfold Manufactured.polarU
  nlinarith

theorem mixedU_neg {x : V3} (h0 : 0 < x 0) (h1 : x 0 < 1) : Manufactured.mixedU x < 0 := by
  have e : Manufactured.mixedU x = -((1 - x 0) ^ 2 * (3 * x 0 ^ 2 + 2 * x 0 + 1)) / 48 := by
    unfold Manufactured.mixedU; ring
  have : 0 < (1 - x 0) ^ 2 := by have : 0 < 1 - x 0 := by linarith
                                 positivity
  rw [e]
  have : 0 < (1 - x 0) ^ 2 * (3 * x 0 ^ 2 + 2 * x 0 + 1) := by positivity
  linarith

theorem toroidU_pos {x : V3} (h0 : 0 < x 0) (h1 : x 0 < 1) (h2 : 0 ≤ x 2) (h3 : x 2 < 1 / 4) : 0 < Manufactured.toroidU x := by
  have a : 0 < x 0 ^ 2 - x 0 ^ 4 := by
    have : x 0 ^ 2 - x 0 ^ 4 = x 0 ^ 2 * ((1 - x 0) * (1 + x 0)) := by ring
    rw [this]
    have : 0 < 1 - x 0 := by linarith
    positivity
  have b : 0 < cos (2 * π * x 2) := cos_pos_of_mem_Ioo ⟨by
    have := pi_pos
    have : 0 ≤ 2 * π * x 2 := by positivity
    linarith, by
    have := pi_pos
    nlinarith⟩
  unfold Manufactured.toroidU
  positivity

/-- The sizes of the polar tutorials. -/
theorem polar_sizes {n p : Nat} (hp : 1 ≤ p) (hp8 : p ≤ 8) (hn : p < n) (h3 : 3 ≤ n) (hm : n - p ≤ 8000) :
    Sizes (n, n, 1) (p, p, 0) (p + 2) ("clamped", "periodic", "constant") true :=
  ⟨by omega, rfl, Or.inl ⟨rfl, hp, hn, by simp only; omega, Or.inl (by simp only; omega)⟩,
    Or.inr (Or.inl ⟨rfl, hp, Or.inl hn, by simp only; omega, by simp only; omega, Or.inl (by simp only; omega)⟩),
    Or.inr (Or.inr ⟨rfl, rfl, Nat.zero_le _⟩), fun _ => ⟨rfl, rfl, by decide, h3, h3⟩⟩

/-- The sizes of the toroidal tutorial. -/
theorem toroid_sizes {n p : Nat} (hp : 1 ≤ p) (hp8 : p ≤ 8) (hn : p < n) (h3 : 3 ≤ n) (hm : n - p ≤ 8000) :
    Sizes (n, n, n) (p, p, p) (p + 2) ("clamped", "periodic", "periodic") true :=
  ⟨by omega, rfl, Or.inl ⟨rfl, hp, hn, by simp only; omega, Or.inl (by simp only; omega)⟩,
    Or.inr (Or.inl ⟨rfl, hp, Or.inl hn, by simp only; omega, by simp only; omega, Or.inl (by simp only; omega)⟩),
    Or.inr (Or.inl ⟨rfl, hp, Or.inl hn, by simp only; omega, by simp only; omega, Or.inl (by simp only; omega)⟩),
    fun _ => ⟨rfl, rfl, by decide, h3, h3⟩⟩

section
variable {ns ps : Nat × Nat × Nat} {q : Nat} {types : String × String × String} {F : V3 → V3} {polar dirichlet : Bool} {D : DeRham}

/-- What the error of a tutorial is: `e` is the quotient of the L2 norms (by quadrature) of the difference between exact and computed solution and of the exact solution, which is not zero. -/
def IsRelativeError (D : DeRham) (F : V3 → V3) (u : V3 → ℝ) (uh : V3 → Fin 1 → ℝ) (e : ℝ) : Prop :=
  0 ≤ e ∧ 0 < l2Product (Studies.scalar u) (Studies.scalar u) D.S.Q F ∧
    e ^ 2 * l2Product (Studies.scalar u) (Studies.scalar u) D.S.Q F = l2Product (fun x => Studies.scalar u x - uh x) (fun x => Studies.scalar u x - uh x) D.S.Q F

theorem isRelativeError (h : Admissible ns ps q types F polar dirichlet D) {u : V3 → ℝ} (hu : ∃ x ∈ D.S.Q.x, u (toV3 x) ≠ 0) (uh : V3 → Fin 1 → ℝ) :
    IsRelativeError D F u uh (D.relativeError (Studies.scalar u) uh) := by
  obtain ⟨x, hx, hne⟩ := hu
  obtain ⟨j, hj, rfl⟩ := List.mem_iff_getElem.mp hx
  have hj' : j < D.nq := by rw [← h.points_len]; exact hj
  have ex : D.x j = toV3 (D.S.Q.x[j]) := by rw [DeRham.x, List.getD_eq_getElem _ _ hj]
  have hsj : Studies.scalar u (D.x j) ≠ 0 := fun e => hne (by rw [← ex]; exact congrFun e 0)
  obtain ⟨a, b, -⟩ := C78_relative_error h (Studies.scalar u) uh j hj' hsj
  obtain ⟨c1, c2, c3⟩ := l2Norm_sq h (Studies.scalar u)
  refine ⟨a, ?_, b⟩
  rw [← c2]
  have : D.l2Norm (Studies.scalar u) ≠ 0 := fun e => hsj (c3.mp e j hj')
  positivity

end

theorem radial_inside {ns ps : Nat × Nat × Nat} {q : Nat} {types : String × String × String} {polar dirichlet : Bool} {F : V3 → V3} {D : DeRham}
    (h : Sizes ns ps q types polar) (hb : DeRham.mk? ns ps q types F polar dirichlet = .ok D) : ∀ x ∈ D.S.Q.x, 0 < x.1 ∧ x.1 < 1 := by
  obtain ⟨-, a, b, -⟩ := C105_innermost h hb
  intro x hx
  have hm1 : (1 : ℝ) ≤ ((ns.1 - ps.1 : Nat) : ℝ) := by exact_mod_cast h.m.1
  exact ⟨lt_of_lt_of_le (by positivity) (le_trans b (a x hx).1), (a x hx).2⟩

/-- **C110** `polar_poisson.get_err(n, p, p + 2)` for degrees up to 8 and up to 8000 radial elements: the sequence is admissible, there is one discrete weak solution of `-Δu = -r log r` and the value is the
relative L2 error of it against `r³ (3 log r - 2) / 27 + 2 / 27`. -/
theorem C110_polar {n p : Nat} (hp : 1 ≤ p) (hp8 : p ≤ 8) (hn : p < n) (h3 : 3 ≤ n) (hm : n - p ≤ 8000) :
    ∃ D, Admissible (n, n, 1) (p, p, 0) (p + 2) ("clamped", "periodic", "constant") polarMap true true D ∧ ∃ uh : Fin D.m0 → ℝ, ∃ e,
      (∀ w, (∀ v, l2Product (D.phys1 (D.strongGrad *ᵥ v)) (D.phys1 (D.strongGrad *ᵥ w)) D.S.Q polarMap =
        l2Product (D.phys0 v) (fun x _ => -(x 0 * log (x 0))) D.S.Q polarMap) ↔ w = uh) ∧
      IsRelativeError D polarMap (fun x => x 0 ^ 3 * (3 * log (x 0) - 2) / 27 + 2 / 27) (D.phys0 uh) e ∧ polarErr n p (p + 2) = .ok e := by
  have hs := polar_sizes hp hp8 hn h3 hm
  obtain ⟨⟨D, hD⟩, -⟩ := C105_8000_elements (dirichlet := true) hm hs
  have hf : (fun (x : V3) (_ : Fin 1) => -(x 0 * log (x 0))) = Studies.scalar Manufactured.polarF := by
    funext x i; simp only [Studies.scalar, Manufactured.polarF]; ring
  have hu : (fun x : V3 => x 0 ^ 3 * (3 * log (x 0) - 2) / 27 + 2 / 27) = Manufactured.polarU := by
    funext x; simp only [Manufactured.polarU]; ring
  rw [hf, hu]
  refine ⟨D, hD, D.poisson0 (Studies.scalar Manufactured.polarF), _, fun w => ?_, isRelativeError hD ?_ _, by rw [polarErr, hD.built]⟩
  · exact (C78_poisson_weak_form hD ⟨rfl, by decide, by decide⟩ rfl (fun _ => le_refl _) (Studies.scalar Manufactured.polarF) w).symm
  · obtain ⟨⟨x, hx, -⟩, -⟩ := C105_innermost hs hD.built
    obtain ⟨a, b⟩ := radial_inside hs hD.built x hx
    exact ⟨x, hx, (polarU_pos (x := toV3 x) a b).ne'⟩

/-- **C110** `mixed_polar_poisson.get_err(n, p, p + 2)`: the same for the mixed formulation, with the flux `σ = weak_grad uh`. -/
theorem C110_mixed {n p : Nat} (hp : 1 ≤ p) (hp8 : p ≤ 8) (hn : p < n) (h3 : 3 ≤ n) (hm : n - p ≤ 8000) :
    ∃ D, Admissible (n, n, 1) (p, p, 0) (p + 2) ("clamped", "periodic", "constant") polarMap true false D ∧ ∃ uh : Fin D.m3 → ℝ, ∃ e,
      (∀ w σ, ((∀ τ, l2Product (D.phys2 τ) (D.phys2 σ) D.S.Q polarMap = -l2Product (D.phys3 (D.strongDiv *ᵥ τ)) (D.phys3 w) D.S.Q polarMap) ∧
        ∀ v, -l2Product (D.phys3 v) (D.phys3 (D.strongDiv *ᵥ σ)) D.S.Q polarMap = l2Product (D.phys3 v) (fun x _ => (x 0 - 3 / 4) * x 0) D.S.Q polarMap) ↔
        w = uh ∧ σ = D.weakGrad *ᵥ w) ∧
      IsRelativeError D polarMap (fun x => -(x 0 ^ 4 / 16 - x 0 ^ 3 / 12 + 1 / 48)) (D.phys3 uh) e ∧ mixedErr n p (p + 2) = .ok e := by
  have hs := polar_sizes hp hp8 hn h3 hm
  obtain ⟨⟨D, hD⟩, -⟩ := C105_8000_elements (dirichlet := false) hm hs
  have hf : (fun (x : V3) (_ : Fin 1) => (x 0 - 3 / 4) * x 0) = Studies.scalar Manufactured.mixedF := by
    funext x i; simp only [Studies.scalar, Manufactured.mixedF]; ring
  have hu : (fun x : V3 => -(x 0 ^ 4 / 16 - x 0 ^ 3 / 12 + 1 / 48)) = Manufactured.mixedU := by
    funext x; simp only [Manufactured.mixedU]; ring
  rw [hf, hu]
  refine ⟨D, hD, D.poisson3 (Studies.scalar Manufactured.mixedF), _, fun w σ => ?_, isRelativeError hD ?_ _, by rw [mixedErr, hD.built]⟩
  · exact (C78_mixed_poisson hD ⟨rfl, by decide, by decide⟩ rfl (le_refl _) (fun _ => rfl) (Studies.scalar Manufactured.mixedF) w σ).symm
  · obtain ⟨⟨x, hx, -⟩, -⟩ := C105_innermost hs hD.built
    obtain ⟨a, b⟩ := radial_inside hs hD.built x hx
    exact ⟨x, hx, (mixedU_neg (x := toV3 x) a b).ne⟩

/-- **C110** `toroid_poisson.get_err(n, p, p + 2)`: the same on the torus of minor radius 1/3, with the source of the tutorial. -/
theorem C110_toroid {n p : Nat} (hp : 1 ≤ p) (hp8 : p ≤ 8) (hn : p < n) (h3 : 3 ≤ n) (hm : n - p ≤ 3000) :
    ∃ D, Admissible (n, n, n) (p, p, p) (p + 2) ("clamped", "periodic", "periodic") (toroidMap (1 / 3) 1 1) true true D ∧ ∃ uh : Fin D.m0 → ℝ, ∃ e,
      (∀ w, (∀ v, l2Product (D.phys1 (D.strongGrad *ᵥ v)) (D.phys1 (D.strongGrad *ᵥ w)) D.S.Q (toroidMap (1 / 3) 1 1) =
        l2Product (D.phys0 v) (fun x _ => Manufactured.toroidF (1 / 3) x) D.S.Q (toroidMap (1 / 3) 1 1)) ↔ w = uh) ∧
      IsRelativeError D (toroidMap (1 / 3) 1 1) (fun x => (x 0 ^ 2 - x 0 ^ 4) * cos (2 * π * x 2)) (D.phys0 uh) e ∧ toroidErr n p (p + 2) = .ok e := by
  have hs := toroid_sizes hp hp8 hn h3 (by omega)
  obtain ⟨D, hb⟩ := hs.built (toroidMap (1 / 3) 1 1) true
  have hD := (C105_toroid_map (ε := 1 / 3) (κ := 1) (R0 := 1) (by norm_num) (by norm_num) (by norm_num) hs hb).1 (by
    have b := (innermost_bounds hs.m.1 hs.m.2 hs.q10).1
    have hm' : ((n - p : Nat) : ℝ) ≤ 3000 := by exact_mod_cast hm
    have hm1 : (1 : ℝ) ≤ ((n - p : Nat) : ℝ) := by exact_mod_cast hs.m.1
    have k : 1 / (77 * 3000 : ℝ) ≤ innermost (n - p) (p + 2) := le_trans (by gcongr) b
    have : (2 * 3.141592) ^ 2 * (1 / 3) ^ 2 * 1 * (1 - 1 / 3) * (1 / (77 * 3000)) ≤ (2 * π) ^ 2 * (1 / 3) ^ 2 * 1 * (1 - 1 / 3) * innermost (n - p) (p + 2) := by
      have := pi_gt_d6.le
      gcongr
    refine le_trans ?_ this
    norm_num)
  have hu : (fun x : V3 => (x 0 ^ 2 - x 0 ^ 4) * cos (2 * π * x 2)) = Manufactured.toroidU := by
    funext x; simp only [Manufactured.toroidU]; ring
  rw [hu]
  refine ⟨D, hD, D.poisson0 (Studies.scalar (Manufactured.toroidF (1 / 3))), _, fun w => ?_, isRelativeError hD ?_ _, by rw [toroidErr, hb]⟩
  · exact (C78_poisson_weak_form hD ⟨rfl, by decide, by decide⟩ rfl (fun _ => le_refl _) (Studies.scalar (Manufactured.toroidF (1 / 3))) w).symm
  · obtain ⟨x, hx, ez⟩ := zeta_point hs hb rfl
    obtain ⟨a, b⟩ := radial_inside hs hb x hx
    have hb := innermost_bounds (m := n) (q := p + 2) (by omega) (by omega) (by omega)
    have hn3 : (3 : ℝ) ≤ (n : ℝ) := by exact_mod_cast h3
    have h6 : 1 / (2 * (n : ℝ)) ≤ 1 / (2 * 3) := by gcongr
    refine ⟨x, hx, (toroidU_pos (x := toV3 x) a b ?_ ?_).ne'⟩
    · show 0 ≤ x.2.2
      rw [ez]
      exact le_trans (by positivity) hb.1
    · show x.2.2 < 1 / 4
      rw [ez]
      linarith [hb.2]

/-- The sequence is not built if the degree is not less than the number of radial splines. -/
theorem not_built {n p : Nat} (hp : 2 ≤ p) (hn : n ≤ p) (m₁ m₂ p₁ p₂ q : Nat) (t₁ t₂ : String) (F : V3 → V3) (polar dirichlet : Bool) :
    ∃ e, DeRham.mk? (n, m₁, m₂) (p, p₁, p₂) q ("clamped", t₁, t₂) F polar dirichlet = .error e := by
  cases h : DeRham.mk? (n, m₁, m₂) (p, p₁, p₂) q ("clamped", t₁, t₂) F polar dirichlet with
  | error e => exact ⟨e, rfl⟩
  | ok D =>
    obtain ⟨m0, -⟩ := Seq.mk?_inv (Admissible.seq h)
    obtain ⟨-, -, s0, -⟩ := Form.mk?_inv m0
    have := ((C09_constructor_accepts_iff (K := ℝ) n p "clamped").mp ⟨_, s0⟩).2
    omega

/-- **C110** none of the three tutorials works with a degree of at least 2 that is not less than the number of splines. -/
theorem C110_degree_too_high {n p : Nat} (hp : 2 ≤ p) (hn : n ≤ p) (q : Nat) :
    (∃ e, polarErr n p q = .error e) ∧ (∃ e, mixedErr n p q = .error e) ∧ ∃ e, toroidErr n p q = .error e := by
  obtain ⟨e1, h1⟩ := not_built hp hn n 1 p 0 q "periodic" "constant" polarMap true true
  obtain ⟨e2, h2⟩ := not_built hp hn n 1 p 0 q "periodic" "constant" polarMap true false
  obtain ⟨e3, h3⟩ := not_built hp hn n n p p q "periodic" "periodic" (toroidMap (1 / 3) 1 1) true true
  exact ⟨⟨e1, by rw [polarErr, h1]⟩, ⟨e2, by rw [mixedErr, h2]⟩, ⟨e3, by rw [toroidErr, h3]⟩⟩

/-- The quadrature order the tutorials use for degree `p`. -/
def withOrder (g : Nat → Nat → Nat → Except String ℝ) : Nat → Nat → Except String ℝ := fun n p => g n p (p + 2)

theorem study_iff {g : Nat → Nat → Nat → Except String ℝ} (clock : Nat → ℝ) (store : Bool) {ns ps : List Nat} (hn : ∀ n ∈ ns, 3 ≤ n) (hp : ∀ p ∈ ps, 1 ≤ p)
    (ok : ∀ n ∈ ns, ∀ p ∈ ps, p < n → ∃ v, g n p (p + 2) = .ok v) (bad : ∀ n p, 2 ≤ p → n ≤ p → ∃ e, g n p (p + 2) = .error e) :
    (∃ r, run (fixed (withOrder g)) clock store ns ps = .ok r) ↔ ∀ n ∈ ns, ∀ p ∈ ps, p < n := by
  rw [(C110_deterministic (withOrder g) clock store ns ps).1]
  constructor
  · intro h n hn' p hp'
    by_contra hle
    obtain ⟨v, hv⟩ := h n hn' p hp'
    obtain ⟨e, he⟩ := bad n p (by have := hn n hn'; omega) (by omega)
    unfold withOrder at hv
    rw [he] at hv
    cases hv
  · intro h n hn' p hp'
    exact ok n hn' p hp' (h n hn' p hp')

/-- **C110** the three studies (degrees 1 to 8, at least 3 and at most 3000 splines in each direction) return their tables exactly when every degree is less than every number of splines; one pair that violates
this costs all the results. -/
theorem C110_studies_iff (clock : Nat → ℝ) {ns ps : List Nat} (hn : ∀ n ∈ ns, 3 ≤ n ∧ n ≤ 3000) (hp : ∀ p ∈ ps, 1 ≤ p ∧ p ≤ 8) :
    ((∃ r, run (fixed (withOrder polarErr)) clock true ns ps = .ok r) ↔ ∀ n ∈ ns, ∀ p ∈ ps, p < n) ∧
    ((∃ r, run (fixed (withOrder mixedErr)) clock true ns ps = .ok r) ↔ ∀ n ∈ ns, ∀ p ∈ ps, p < n) ∧
    ((∃ r, run (fixed (withOrder toroidErr)) clock true ns ps = .ok r) ↔ ∀ n ∈ ns, ∀ p ∈ ps, p < n) := by
  have h1 : ∀ n ∈ ns, 3 ≤ n := fun n h => (hn n h).1
  have h2 : ∀ p ∈ ps, 1 ≤ p := fun p h => (hp p h).1
  refine ⟨study_iff clock true h1 h2 (fun n a p b c => ?_) fun n p a b => (C110_degree_too_high a b _).1,
    study_iff clock true h1 h2 (fun n a p b c => ?_) fun n p a b => (C110_degree_too_high a b _).2.1,
    study_iff clock true h1 h2 (fun n a p b c => ?_) fun n p a b => (C110_degree_too_high a b _).2.2⟩
  · obtain ⟨D, -, uh, e, -, -, h⟩ := C110_polar (h2 p b) (hp p b).2 c (h1 n a) (by have := (hn n a).2; omega)
    exact ⟨e, h⟩
  · obtain ⟨D, -, uh, e, -, -, h⟩ := C110_mixed (h2 p b) (hp p b).2 c (h1 n a) (by have := (hn n a).2; omega)
    exact ⟨e, h⟩
  · obtain ⟨D, -, uh, e, -, -, h⟩ := C110_toroid (h2 p b) (hp p b).2 c (h1 n a) (by have := (hn n a).2; omega)
    exact ⟨e, h⟩

/-- **C110** the ranges of the `main` functions: polar and mixed with `arange(6, 17, 2)`, `arange(1, 5)`; the torus with `arange(4, 10, 2)`, `arange(1, 4)`. -/
theorem C110_mains (clock : Nat → ℝ) :
    arange 6 17 2 = [6, 8, 10, 12, 14, 16] ∧ arange 1 5 1 = [1, 2, 3, 4] ∧ arange 4 10 2 = [4, 6, 8] ∧ arange 1 4 1 = [1, 2, 3] ∧
    (∃ r, run (fixed (withOrder polarErr)) clock true (arange 6 17 2) (arange 1 5 1) = .ok r) ∧
    (∃ r, run (fixed (withOrder mixedErr)) clock true (arange 6 17 2) (arange 1 5 1) = .ok r) ∧
    ∃ r, run (fixed (withOrder toroidErr)) clock true (arange 4 10 2) (arange 1 4 1) = .ok r := by
  have e1 : arange 6 17 2 = [6, 8, 10, 12, 14, 16] := by decide
  have e2 : arange 1 5 1 = [1, 2, 3, 4] := by decide
  have e3 : arange 4 10 2 = [4, 6, 8] := by decide
  have e4 : arange 1 4 1 = [1, 2, 3] := by decide
  rw [e1, e2, e3, e4]
  have a := C110_studies_iff clock (ns := [6, 8, 10, 12, 14, 16]) (ps := [1, 2, 3, 4]) (by decide) (by decide)
  have b := C110_studies_iff clock (ns := [4, 6, 8]) (ps := [1, 2, 3]) (by decide) (by decide)
  exact ⟨rfl, rfl, rfl, rfl, a.1.mpr (by decide), a.2.1.mpr (by decide), b.2.2.mpr (by decide)⟩

/-- Case: a study with degree 4 on a mesh of 4 splines returns nothing. -/
example (clock : Nat → ℝ) : ¬ ∃ r, run (fixed (withOrder polarErr)) clock true [8, 4] [2, 4] = .ok r := fun h =>
  absurd ((C110_studies_iff clock (ns := [8, 4]) (ps := [2, 4]) (by decide) (by decide)).1.mp h 4 (by decide) 4 (by decide)) (by decide)

/-! ## The figures -/

section
variable {call : Nat → Nat → Nat → Except String ℝ} {clock : Nat → ℝ} {store : Bool} {ns ps : List Nat} {r : Result}

/-- **C110** the figures: one curve for each degree, labelled with it, and its points are the numbers of splines with the entries of the column of the table that is drawn (errors, times of the first pass, times of the second pass); the speed-up is the quotient of the two times. -/
theorem C110_curves (t : Grid2) (r : Result) (ns ps : List Nat) (j : Nat) (hj : j < ps.length) :
    (∃ c, (columns t ns ps)[j]? = some c ∧ c.degree = ps[j] ∧ c.points.length = ns.length ∧
      ∀ i, ∀ hi : i < ns.length, c.points[i]? = some ((ns[i] : ℝ), entry t i j)) ∧
    (∃ c, (speedups r ns ps)[j]? = some c ∧ c.degree = ps[j] ∧ c.points.length = ns.length ∧
      ∀ i, ∀ hi : i < ns.length, c.points[i]? = some ((ns[i] : ℝ), entry r.times i j / entry r.times2 i j)) ∧
    (columns t ns ps).length = ps.length ∧ (speedups r ns ps).length = ps.length := by
  refine ⟨⟨⟨ps[j], ns.zipIdx.map fun ni => ((ni.1 : ℝ), entry t ni.2 j)⟩, ?_, rfl, ?_, fun i hi => ?_⟩,
    ⟨⟨ps[j], ns.zipIdx.map fun ni => ((ni.1 : ℝ), entry r.times ni.2 j / entry r.times2 ni.2 j)⟩, ?_, rfl, ?_, fun i hi => ?_⟩, ?_, ?_⟩
  · simp [Studies.columns, hj]
  · simp
  · simp [hi]
  · simp [speedups, hj]
  · simp
  · simp [hi]
  · simp [Studies.columns]
  · simp [speedups]

/-- Case: a table with two rows. -/
example := C110_curves [[1, 2], [3, 4]] ⟨[[1, 2], [3, 4]], [[9, 8], [7, 6]], [[3, 2], [1, 2]]⟩ [4, 6] [1, 2] 1 (by decide)

/-- **C110** the reference lines of `cylinder_vector_poisson.plot_results`: they meet the measured curve at the last number of splines, and decay with the power `2 p - 1` (power 2 for `p = 1`): the value at `n` times
`n` to this power is the same for all `n`. -/
theorem C110_references (err : Grid2) (ns ps : List Nat) (hpos : ∀ n ∈ ns, 0 < n) (hne : ns ≠ []) (j : Nat) (hj : j < ps.length) :
    ∃ c, (references err ns ps)[j]? = some c ∧ c.degree = ps[j] ∧ c.points.map Prod.fst = ns.map (fun n : Nat => (n : ℝ)) ∧
      c.points.getLast? = some ((ns.getLast hne : ℝ), entry err (ns.length - 1) j) ∧
      ∀ x ∈ c.points, x.2 * x.1 ^ (if ps[j] = 1 then (2 : ℤ) else 2 * ps[j] - 1) =
        entry err (ns.length - 1) j * (ns.getLast hne : ℝ) ^ (if ps[j] = 1 then (2 : ℤ) else 2 * ps[j] - 1) := by
  have hl : ns.getLastD 0 = ns.getLast hne := by rw [List.getLastD_eq_getLast?, List.getLast?_eq_getLast_of_ne_nil hne, Option.getD_some]
  have hN : ((ns.getLast hne : Nat) : ℝ) ≠ 0 := by
    have := hpos _ (List.getLast_mem hne)
    positivity
  have hr : expectedRate ps[j] = (if ps[j] = 1 then (2 : ℤ) else 2 * ps[j] - 1) := by
    unfold expectedRate
    by_cases h1 : ps[j] = 1
    · rw [if_pos h1, h1]; decide
    · rw [if_neg h1, if_pos h1]; ring
  refine ⟨⟨ps[j], ns.map fun n : Nat => ((n : ℝ), entry err (ns.length - 1) j * ((n : ℝ) / ((ns.getLastD 0 : Nat) : ℝ)) ^ (-expectedRate ps[j]))⟩, ?_, rfl, ?_, ?_, ?_⟩
  · simp [references, hj]
  · simp [Function.comp_def]
  · rw [List.getLast?_map, List.getLast?_eq_getLast_of_ne_nil hne, Option.map_some, hl, div_self hN, _root_.one_zpow, mul_one]
  · intro x hx
    obtain ⟨n, hn, rfl⟩ := List.mem_map.mp hx
    have hn0 : (n : ℝ) ≠ 0 := by
      have := hpos n hn
      positivity
    rw [← hr, hl]
    dsimp only
    rw [mul_assoc, _root_.zpow_neg, div_zpow, inv_div, div_mul_cancel₀ _ (zpow_ne_zero _ hn0)]

/-- Case: the reference line for degree 2 in a table with two rows. -/
example := C110_references [[1, 2], [3, 4]] [4, 6] [1, 2] (by decide) (by decide) 1 (by decide)

end

end Mrx.Props
