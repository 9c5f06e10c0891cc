import Verif.Model.IO
import Mathlib.Data.List.Nodup
import Mathlib.Data.List.Basic

/-! # Lemmas on dictionaries -/

namespace Mrx.IO
variable {V : Type}

namespace PyDict

theorem get?_nil (k : PyStr) : PyDict.get? ([] : PyDict V) k = none := rfl

theorem get?_cons (e : PyStr × V) (d : PyDict V) (k : PyStr) : PyDict.get? (e :: d) k = if k = e.1 then some e.2 else d.get? k := by
  obtain ⟨a, b⟩ := e
  simp only [get?, List.lookup_cons]
  by_cases h : k = a
  · simp [h]
  · have : (k == a) = false := by simpa using h
    simp [this, h]

theorem mem_of_get? {d : PyDict V} {k : PyStr} {v : V} (h : d.get? k = some v) : (k, v) ∈ d := by
  induction d with
  | nil => simp [get?] at h
  | cons a d ih =>
    rw [get?_cons] at h
    split_ifs at h with hk
    · injection h with h
      subst h hk
      exact List.mem_cons_self
    · exact List.mem_cons_of_mem _ (ih h)

theorem get?_append (d e : PyDict V) (k : PyStr) : PyDict.get? (d ++ e) k = (d.get? k).or (e.get? k) := by
  induction d with
  | nil => simp [get?]
  | cons a d ih =>
    rw [List.cons_append, get?_cons, get?_cons, ih]
    split_ifs <;> simp

theorem mem_iff (d : PyDict V) (k : PyStr) : d.mem k = true ↔ k ∈ d.map (·.1) := by
  induction d with
  | nil => simp [PyDict.mem, get?]
  | cons a d ih =>
    have : PyDict.mem (a :: d) k = if k = a.1 then true else PyDict.mem d k := by
      unfold PyDict.mem
      rw [get?_cons]
      split_ifs <;> simp
    rw [this]
    split_ifs with h
    · simp [h]
    · rw [ih]; simp [h]

theorem get?_set (d : PyDict V) (k : PyStr) (v : V) (k' : PyStr) : (d.set k v).get? k' = if k' = k then some v else d.get? k' := by
  unfold PyDict.set
  by_cases hm : d.mem k = true
  · rw [if_pos hm]
    have key : ∀ d : PyDict V, PyDict.get? (d.map fun e => if e.1 = k then (k, v) else e) k' =
        if k' = k then (if d.mem k then some v else none) else d.get? k' := by
      intro d
      induction d with
      | nil => simp [get?, PyDict.mem]
      | cons a d ih =>
        rw [List.map_cons, get?_cons, ih]
        have hm : PyDict.mem (a :: d) k = if k = a.1 then true else PyDict.mem d k := by
          unfold PyDict.mem
          rw [get?_cons]
          split_ifs <;> simp
        rw [hm, get?_cons]
        by_cases h1 : a.1 = k
        · by_cases h2 : k' = k
          · simp [h1, h2]
          · simp [h1, h2]
        · by_cases h2 : k' = k
          · have : ¬ k = a.1 := fun h => h1 h.symm
            have : ¬ k' = a.1 := by rw [h2]; exact this
            simp [h1, h2, *]
          · simp [h1, h2]
    rw [key, if_pos hm]
  · rw [if_neg hm, get?_append, get?_cons]
    by_cases h : k' = k
    · have : d.get? k = none := by
        simpa [PyDict.mem] using hm
      simp [h, this]
    · simp [h, get?]

theorem mem_set (d : PyDict V) (k : PyStr) (v : V) (k' : PyStr) : (d.set k v).mem k' = (decide (k' = k) || d.mem k') := by
  unfold PyDict.mem
  rw [get?_set]
  by_cases h : k' = k <;> simp [h]

theorem keys_set (d : PyDict V) (k : PyStr) (v : V) :
    (d.set k v).map (·.1) = if d.mem k then d.map (·.1) else d.map (·.1) ++ [k] := by
  unfold PyDict.set
  split_ifs with h
  · rw [List.map_map]
    apply List.map_congr_left
    intro e _
    simp only [Function.comp]
    split_ifs with h2
    · exact h2.symm
    · rfl
  · simp

theorem nodup_set (d : PyDict V) (k : PyStr) (v : V) (h : (d.map (·.1)).Nodup) : ((d.set k v).map (·.1)).Nodup := by
  rw [keys_set]
  split_ifs with hm
  · exact h
  · rw [mem_iff] at hm
    rw [List.nodup_append]
    exact ⟨h, by simp, by rintro a ha b hb rfl; simp at hb; subst hb; exact hm ha⟩

theorem get?_update (d new : PyDict V) (h : (new.map (·.1)).Nodup) (k : PyStr) :
    (d.update new).get? k = (new.get? k).or (d.get? k) := by
  induction new generalizing d with
  | nil => simp [PyDict.update, get?]
  | cons a new ih =>
    rw [List.map_cons, List.nodup_cons] at h
    have : d.update (a :: new) = (d.set a.1 a.2).update new := rfl
    rw [this, ih _ h.2, get?_set, get?_cons]
    by_cases hk : k = a.1
    · have : PyDict.get? new k = none := by
        have := h.1
        rw [← hk, ← mem_iff] at this
        simpa [PyDict.mem] using this
      rw [this, if_pos hk, if_pos hk]; rfl
    · simp [hk]

theorem mem_update (d new : PyDict V) (h : (new.map (·.1)).Nodup) (k : PyStr) :
    (d.update new).mem k = (new.mem k || d.mem k) := by
  unfold PyDict.mem
  rw [get?_update _ _ h]
  cases new.get? k <;> simp

end PyDict
end Mrx.IO
