import Verif.Props.Relaxation
import Verif.Props.IO

/-!
# C57, C58: collections of saved runs
-/

set_option linter.unusedSectionVars false

namespace Mrx.Props
open Mrx.IO

/-! ## C57 -/

/-- The attribute is the number `x`: an integer or a float. -/
inductive NumberIs : Attr → FV → Prop
  | int (n : Int) : NumberIs (.int n) (.fin n)
  | num (x : FV) : NumberIs (.num x) x

/-- Two attributes have the same value: equal strings or equal numbers (NaN equals nothing). -/
inductive SameValue : Attr → Attr → Prop
  | str (s : PyStr) : SameValue (.str s) (.str s)
  | num (a b : Attr) (x y : FV) : NumberIs a x → NumberIs b y → x = y → x ≠ .nan → SameValue a b

theorem FV.eq_iff (x y : FV) : FV.eq x y ↔ x = y ∧ x ≠ .nan := by
  cases x <;> cases y <;> simp [FV.eq]

theorem toFV?_iff (a : Attr) (x : FV) : a.toFV? = some x ↔ NumberIs a x := by
  constructor
  · intro h
    cases a with
    | int n => injection h with h; rw [← h]; exact .int n
    | num y => injection h with h; rw [← h]; exact .num y
    | str s => cases h
    | arr xs => cases h
  · rintro (_ | _) <;> rfl

/-- No array-valued attribute. -/
def Scalar (a : Attr) : Prop := ∀ xs, a ≠ .arr xs

theorem ne_some (r : Option Attr) (v : Attr) (hr : ∀ a, r = some a → Scalar a) (hv : Scalar v) :
    ∃ b, Attr.ne r v = some b ∧ (b = false ↔ ∃ a, r = some a ∧ SameValue a v) := by
  classical
  cases v with
  | arr xs => exact absurd rfl (hv xs)
  | str t =>
    cases r with
    | none => exact ⟨true, rfl, by simp⟩
    | some a =>
      cases a with
      | arr xs => exact absurd rfl (hr _ rfl xs)
      | str s =>
        refine ⟨_, rfl, ?_⟩
        simp only [Bool.not_eq_false', decide_eq_true_eq]
        constructor
        · rintro rfl; exact ⟨_, rfl, .str s⟩
        · rintro ⟨a, ha, h⟩
          injection ha with ha
          subst ha
          cases h with
          | str => rfl
          | num a b x y h1 => cases h1
      | int n =>
        refine ⟨true, rfl, ?_⟩
        simp only [Bool.true_eq_false, false_iff]
        rintro ⟨a, ha, h⟩
        injection ha with ha
        subst ha
        cases h with
        | num a b x y h1 h2 => cases h2
      | num x =>
        refine ⟨true, rfl, ?_⟩
        simp only [Bool.true_eq_false, false_iff]
        rintro ⟨a, ha, h⟩
        injection ha with ha
        subst ha
        cases h with
        | num a b x y h1 h2 => cases h2
  | int m =>
    cases r with
    | none => exact ⟨true, rfl, by simp⟩
    | some a =>
      cases a with
      | arr xs => exact absurd rfl (hr _ rfl xs)
      | str s =>
        refine ⟨true, rfl, ?_⟩
        simp only [Bool.true_eq_false, false_iff]
        rintro ⟨a, ha, h⟩
        injection ha with ha
        subst ha
        cases h with
        | num a b x y h1 h2 => cases h1
      | int n =>
        refine ⟨_, rfl, ?_⟩
        simp only [Bool.not_eq_false', decide_eq_true_eq]
        constructor
        · rintro ⟨x, y, h1, h2, h3⟩; exact ⟨_, rfl, .num _ _ x y ((toFV?_iff _ _).1 h1) ((toFV?_iff _ _).1 h2) ((FV.eq_iff _ _).1 h3).1 ((FV.eq_iff _ _).1 h3).2⟩
        · rintro ⟨a, ha, h⟩
          injection ha with ha
          subst ha
          cases h with
          | num a b x y h1 h2 h3 h4 => exact ⟨x, y, (toFV?_iff _ _).2 h1, (toFV?_iff _ _).2 h2, (FV.eq_iff _ _).2 ⟨h3, h4⟩⟩
      | num n =>
        refine ⟨_, rfl, ?_⟩
        simp only [Bool.not_eq_false', decide_eq_true_eq]
        constructor
        · rintro ⟨x, y, h1, h2, h3⟩; exact ⟨_, rfl, .num _ _ x y ((toFV?_iff _ _).1 h1) ((toFV?_iff _ _).1 h2) ((FV.eq_iff _ _).1 h3).1 ((FV.eq_iff _ _).1 h3).2⟩
        · rintro ⟨a, ha, h⟩
          injection ha with ha
          subst ha
          cases h with
          | num a b x y h1 h2 h3 h4 => exact ⟨x, y, (toFV?_iff _ _).2 h1, (toFV?_iff _ _).2 h2, (FV.eq_iff _ _).2 ⟨h3, h4⟩⟩
  | num m =>
    cases r with
    | none => exact ⟨true, rfl, by simp⟩
    | some a =>
      cases a with
      | arr xs => exact absurd rfl (hr _ rfl xs)
      | str s =>
        refine ⟨true, rfl, ?_⟩
        simp only [Bool.true_eq_false, false_iff]
        rintro ⟨a, ha, h⟩
        injection ha with ha
        subst ha
        cases h with
        | num a b x y h1 h2 => cases h1
      | int n =>
        refine ⟨_, rfl, ?_⟩
        simp only [Bool.not_eq_false', decide_eq_true_eq]
        constructor
        · rintro ⟨x, y, h1, h2, h3⟩; exact ⟨_, rfl, .num _ _ x y ((toFV?_iff _ _).1 h1) ((toFV?_iff _ _).1 h2) ((FV.eq_iff _ _).1 h3).1 ((FV.eq_iff _ _).1 h3).2⟩
        · rintro ⟨a, ha, h⟩
          injection ha with ha
          subst ha
          cases h with
          | num a b x y h1 h2 h3 h4 => exact ⟨x, y, (toFV?_iff _ _).2 h1, (toFV?_iff _ _).2 h2, (FV.eq_iff _ _).2 ⟨h3, h4⟩⟩
      | num n =>
        refine ⟨_, rfl, ?_⟩
        simp only [Bool.not_eq_false', decide_eq_true_eq]
        constructor
        · rintro ⟨x, y, h1, h2, h3⟩; exact ⟨_, rfl, .num _ _ x y ((toFV?_iff _ _).1 h1) ((toFV?_iff _ _).1 h2) ((FV.eq_iff _ _).1 h3).1 ((FV.eq_iff _ _).1 h3).2⟩
        · rintro ⟨a, ha, h⟩
          injection ha with ha
          subst ha
          cases h with
          | num a b x y h1 h2 h3 h4 => exact ⟨x, y, (toFV?_iff _ _).2 h1, (toFV?_iff _ _).2 h2, (FV.eq_iff _ _).2 ⟨h3, h4⟩⟩

/-- Every entry of the configuration is allowed to differ or has the value of the reference. -/
def Agrees (ref : PyDict Attr) (allowed : List PyStr) (cfg : PyDict Attr) : Prop :=
  ∀ k v, (k, v) ∈ cfg → k ∈ allowed ∨ ∃ a, ref.get? k = some a ∧ SameValue a v

theorem unexpected_iff (ref : PyDict Attr) (allowed : List PyStr) (cfg : PyDict Attr) (hr : ∀ k a, ref.get? k = some a → Scalar a)
    (hc : ∀ k v, (k, v) ∈ cfg → Scalar v) :
    ∃ ds, unexpectedDiffs ref allowed cfg = some ds ∧ (ds.isEmpty = true ↔ Agrees ref allowed cfg) := by
  induction cfg with
  | nil => exact ⟨[], rfl, by simp [Agrees]⟩
  | cons e rest ih =>
    obtain ⟨k, v⟩ := e
    obtain ⟨ds, h1, h2⟩ := ih fun k v h => hc k v (List.mem_cons_of_mem _ h)
    obtain ⟨b, hb, hb'⟩ := ne_some (ref.get? k) v (fun a ha => hr k a ha) (hc k v List.mem_cons_self)
    refine ⟨if b && !(decide (k ∈ allowed)) then k :: ds else ds, by simp only [unexpectedDiffs, hb, h1], ?_⟩
    have split : Agrees ref allowed ((k, v) :: rest) ↔ (k ∈ allowed ∨ ∃ a, ref.get? k = some a ∧ SameValue a v) ∧ Agrees ref allowed rest := by
      constructor
      · exact fun h => ⟨h k v List.mem_cons_self, fun k v hm => h k v (List.mem_cons_of_mem _ hm)⟩
      · rintro ⟨h1, h2⟩ k' v' hm
        rcases List.mem_cons.1 hm with hm | hm
        · injection hm with e1 e2; subst e1 e2; exact h1
        · exact h2 k' v' hm
    rw [split, ← hb', ← h2]
    by_cases hk : k ∈ allowed
    · simp [hk]
    · cases b <;> simp [hk]

/-- What `load_sweep` loads from one directory entry: files named `*.h5` that can be opened, contain the requested trace and a
configuration with integers `maxit` and `save_every != 0`, and agree with the reference. -/
inductive Loads (ref : PyDict Attr) (QOI : PyStr) (sweep : List PyStr) : PyStr × Option H5File → Run → Prop
  | mk (base : PyStr) (f : H5File) (trace : List FV) (cfg : PyDict Attr) (maxit save : Int) (it : List Int) :
      f.data.get? QOI = some trace → f.config = some cfg → cfg.get? "maxit".toList = some (.int maxit) →
      cfg.get? "save_every".toList = some (.int save) → save ≠ 0 → it = (arange0 maxit save).getD [] →
      Agrees ref ("run_name".toList :: sweep) cfg → Loads ref QOI sweep (base ++ ".h5".toList, some f) ⟨cfg, trace, it⟩

theorem readRun_some {QOI : PyStr} {f : Option H5File} {tr : List FV} {cfg : PyDict Attr} {it : List Int} :
    readRun QOI f = some (tr, cfg, it) ↔ ∃ g m s, f = some g ∧ g.data.get? QOI = some tr ∧ g.config = some cfg ∧
      cfg.get? "maxit".toList = some (.int m) ∧ cfg.get? "save_every".toList = some (.int s) ∧ s ≠ 0 ∧ it = (arange0 m s).getD [] := by
  constructor
  · intro h
    unfold readRun at h
    cases f with
    | none => cases h
    | some g =>
      dsimp only at h
      cases h1 : PyDict.get? g.data QOI with
      | none => rw [h1] at h; cases h
      | some tr' =>
        cases h2 : g.config with
        | none => rw [h1, h2] at h; cases h
        | some cfg' =>
          rw [h1, h2] at h
          dsimp only at h
          cases h3 : PyDict.get? cfg' "maxit".toList with
          | none => rw [h3] at h; cases h
          | some a =>
            cases h4 : PyDict.get? cfg' "save_every".toList with
            | none => rw [h3, h4] at h; cases a <;> cases h
            | some b =>
              rw [h3, h4] at h
              cases a <;> cases b <;> try cases h
              rename_i m s
              dsimp only at h
              by_cases hs : s = 0
              · simp [arange0, hs] at h
              · simp only [arange0, if_neg hs, Option.map_some, Option.some.injEq, Prod.mk.injEq] at h
                obtain ⟨rfl, rfl, rfl⟩ := h
                exact ⟨g, m, s, rfl, h1, h2, h3, h4, hs, by simp [arange0, hs]⟩
  · rintro ⟨g, m, s, rfl, h1, h2, h3, h4, h5, rfl⟩
    simp only [readRun, h1, h2, h3, h4, arange0, if_neg h5, Option.map_some, Option.getD_some]

theorem endsWithH5_iff (name : PyStr) : endsWithH5 name = true ↔ ∃ base, name = base ++ ".h5".toList := by
  unfold endsWithH5
  rw [List.isSuffixOf_iff_suffix]
  constructor
  · rintro ⟨b, hb⟩; exact ⟨b, hb.symm⟩
  · rintro ⟨b, hb⟩; exact ⟨b, hb.symm⟩

theorem Loads.iff {ref : PyDict Attr} {QOI : PyStr} {sweep : List PyStr} {name : PyStr} {f : Option H5File} {r : Run} :
    Loads ref QOI sweep (name, f) r ↔ endsWithH5 name = true ∧ readRun QOI f = some (r.force, r.cfg, r.iters) ∧
      Agrees ref ("run_name".toList :: sweep) r.cfg := by
  constructor
  · rintro ⟨base, f, tr, cfg, m, s, it, h1, h2, h3, h4, h5, h6, h7⟩
    exact ⟨(endsWithH5_iff _).2 ⟨_, rfl⟩, readRun_some.2 ⟨_, m, s, rfl, h1, h2, h3, h4, h5, h6⟩, h7⟩
  · rintro ⟨h1, h2, h3⟩
    obtain ⟨base, rfl⟩ := (endsWithH5_iff _).1 h1
    obtain ⟨g, m, s, rfl, a1, a2, a3, a4, a5, a6⟩ := readRun_some.1 h2
    exact .mk base g _ _ m s _ a1 a2 a3 a4 a5 a6 h3

/-- All attributes of the reference and of the files are scalars. -/
def AllScalar (ref : PyDict Attr) (dir : List (PyStr × Option H5File)) : Prop :=
  (∀ k a, ref.get? k = some a → Scalar a) ∧
  ∀ e ∈ dir, ∀ f, e.2 = some f → ∀ cfg, f.config = some cfg → ∀ k v, (k, v) ∈ cfg → Scalar v

/-- **C57** `load_sweep` returns the loadable runs that agree with the reference, in directory order: the result is the list of the runs
loaded from a sublist of the directory entries, and the other entries cannot be loaded. -/
theorem C57_result (ref : PyDict Attr) (QOI : PyStr) (sweep : List PyStr) (dir : List (PyStr × Option H5File)) (hs : AllScalar ref dir) :
    ∃ rs, loadSweep ref QOI sweep dir = .ok rs ∧ ∃ os : List (Option Run), rs = os.filterMap id ∧
      List.Forall₂ (fun e o => ∀ r, o = some r ↔ Loads ref QOI sweep e r) dir os := by
  induction dir with
  | nil => exact ⟨[], rfl, [], rfl, .nil⟩
  | cons e rest ih =>
    obtain ⟨name, f⟩ := e
    obtain ⟨rs, h1, os, h2, h3⟩ := ih ⟨hs.1, fun e he => hs.2 e (List.mem_cons_of_mem _ he)⟩
    unfold loadSweep
    by_cases hn : endsWithH5 name = false
    · rw [if_pos hn]
      refine ⟨rs, h1, none :: os, by simpa using h2, .cons (fun r => ?_) h3⟩
      rw [Loads.iff, hn]
      simp
    · rw [if_neg hn]
      have hn' : endsWithH5 name = true := by simpa using hn
      rcases hr : readRun QOI f with _ | ⟨tr, cfg, it⟩
      · refine ⟨rs, h1, none :: os, by simpa using h2, .cons (fun r => ?_) h3⟩
        rw [Loads.iff, hr]
        simp
      · obtain ⟨g, m, s, rfl, a1, a2, a3, a4, a5, a6⟩ := readRun_some.1 hr
        obtain ⟨ds, b1, b2⟩ := unexpected_iff ref ("run_name".toList :: sweep) cfg hs.1
          (fun k v hk => hs.2 _ List.mem_cons_self g rfl cfg a2 k v hk)
        dsimp only
        rw [b1, h1]
        by_cases hd : ds.isEmpty = true
        · refine ⟨_, rfl, some ⟨cfg, tr, it⟩ :: os, by simp [hd, h2], .cons (fun r => ?_) h3⟩
          rw [Loads.iff, hr]
          constructor
          · intro h
            injection h with h
            subst h
            exact ⟨hn', rfl, b2.1 hd⟩
          · rintro ⟨_, h, _⟩
            injection h with h
            simp only [Prod.mk.injEq] at h
            obtain ⟨rfl, rfl, rfl⟩ := h
            rfl
        · refine ⟨_, rfl, none :: os, by simp [hd, h2], .cons (fun r => ?_) h3⟩
          rw [Loads.iff, hr]
          constructor
          · intro h; cases h
          · rintro ⟨_, h, h'⟩
            injection h with h
            simp only [Prod.mk.injEq] at h
            obtain ⟨rfl, rfl, rfl⟩ := h
            exact absurd (b2.2 h') hd

/-- **C57** membership form. -/
theorem C57_membership (ref : PyDict Attr) (QOI : PyStr) (sweep : List PyStr) (dir : List (PyStr × Option H5File)) (hs : AllScalar ref dir) :
    ∃ rs, loadSweep ref QOI sweep dir = .ok rs ∧ ∀ r, r ∈ rs ↔ ∃ e ∈ dir, Loads ref QOI sweep e r := by
  obtain ⟨rs, h1, os, h2, h3⟩ := C57_result ref QOI sweep dir hs
  refine ⟨rs, h1, fun r => ?_⟩
  rw [h2]
  clear h1 h2 hs
  induction h3 with
  | nil => simp
  | cons h _ ih =>
    rename_i a b l1 l2 _
    cases b with
    | none =>
      rw [List.filterMap_cons_none rfl, ih]
      constructor
      · rintro ⟨e, he, hl⟩; exact ⟨e, List.mem_cons_of_mem _ he, hl⟩
      · rintro ⟨e, he, hl⟩
        rcases List.mem_cons.1 he with rfl | he
        · have := (h r).2 hl; cases this
        · exact ⟨e, he, hl⟩
    | some r' =>
      rw [show List.filterMap id (some r' :: l2) = r' :: List.filterMap id l2 from rfl]
      simp only [List.mem_cons, ih]
      constructor
      · rintro (rfl | ⟨e, he, hl⟩)
        · exact ⟨a, Or.inl rfl, (h r).1 rfl⟩
        · exact ⟨e, Or.inr he, hl⟩
      · rintro ⟨e, he | he, hl⟩
        · subst he
          have := (h r).2 hl
          injection this with this
          exact Or.inl this.symm
        · exact Or.inr ⟨e, he, hl⟩

/-- **C57** (condition: the file has the keys of the reference) then agreement means: the same value for every key that is not swept. -/
theorem C57_agreement_same_keys (ref cfg : PyDict Attr) (allowed : List PyStr) (hnd : (cfg.map (·.1)).Nodup)
    (hkeys : ∀ k, (ref.get? k).isSome ↔ (cfg.get? k).isSome) :
    Agrees ref allowed cfg ↔ ∀ k, k ∉ allowed → ∀ a, ref.get? k = some a → ∃ v, cfg.get? k = some v ∧ SameValue a v := by
  have mem_get : ∀ k v, (k, v) ∈ cfg → cfg.get? k = some v := by
    clear hkeys
    intro k v
    induction cfg with
    | nil => intro h; simp at h
    | cons e rest ih =>
      rw [List.map_cons, List.nodup_cons] at hnd
      intro h
      rw [PyDict.get?_cons]
      rcases List.mem_cons.1 h with h | h
      · subst h; simp
      · rw [if_neg, ih hnd.2 h]
        rintro rfl
        exact hnd.1 (List.mem_map.2 ⟨_, h, rfl⟩)
  constructor
  · intro h k hk a ha
    obtain ⟨v, hv⟩ := Option.isSome_iff_exists.1 ((hkeys k).1 (by rw [ha]; rfl))
    rcases h k v (PyDict.mem_of_get? hv) with h | ⟨a', ha', hs⟩
    · exact absurd h hk
    · rw [ha] at ha'; injection ha' with ha'; subst ha'
      exact ⟨v, hv, hs⟩
  · intro h k v hm
    by_cases hk : k ∈ allowed
    · exact Or.inl hk
    · have hv := mem_get k v hm
      obtain ⟨a, ha⟩ := Option.isSome_iff_exists.1 ((hkeys k).2 (by rw [hv]; rfl))
      obtain ⟨v', hv', hs⟩ := h k hk a ha
      rw [hv] at hv'; injection hv' with hv'; subst hv'
      exact Or.inr ⟨a, ha, hs⟩

/-- **C57** finding: keys missing from a file are not compared. Deleting any entry other than `maxit` and `save_every` from the
configuration of a loaded file leaves it loaded: a file need not agree with the reference on keys it lacks. -/
theorem C57_missing_key_accepted (ref : PyDict Attr) (QOI : PyStr) (sweep : List PyStr) (name : PyStr) (f : H5File) (r : Run)
    (h : Loads ref QOI sweep (name, some f) r) (k : PyStr) (h1 : k ≠ "maxit".toList) (h2 : k ≠ "save_every".toList) :
    Loads ref QOI sweep (name, some { f with config := some (r.cfg.filter fun e => decide (e.1 ≠ k)) })
      { r with cfg := r.cfg.filter fun e => decide (e.1 ≠ k) } := by
  have hget : ∀ (d : PyDict Attr) k', k' ≠ k → PyDict.get? (d.filter fun e => decide (e.1 ≠ k)) k' = d.get? k' := by
    intro d k' hk'
    induction d with
    | nil => rfl
    | cons e d ih =>
      rw [PyDict.get?_cons, List.filter_cons]
      by_cases he : e.1 = k
      · rw [if_neg (by simpa using he), ih, if_neg (by rw [he]; exact hk')]
      · rw [if_pos (by simpa using he), PyDict.get?_cons, ih]
  rw [Loads.iff] at h ⊢
  obtain ⟨a1, a2, a3⟩ := h
  obtain ⟨g, m, s, hg, b1, b2, b3, b4, b5, b6⟩ := readRun_some.1 a2
  injection hg with hg
  subst hg
  refine ⟨a1, readRun_some.2 ⟨_, m, s, rfl, b1, rfl, ?_, ?_, b5, b6⟩, fun k' v hm => a3 k' v (List.mem_filter.1 hm).1⟩
  · rw [hget _ _ (Ne.symm h1), b3]
  · rw [hget _ _ (Ne.symm h2), b4]

/-- **C57** finding: on the other hand a file with an extra key that the reference lacks is never loaded (unless the key is swept). -/
theorem C57_extra_key_rejected (ref : PyDict Attr) (QOI : PyStr) (sweep : List PyStr) (e : PyStr × Option H5File) (r : Run)
    (h : Loads ref QOI sweep e r) (k : PyStr) (v : Attr) (hm : (k, v) ∈ r.cfg) (hk : k ∉ sweep) (hk' : k ≠ "run_name".toList) :
    (ref.get? k).isSome := by
  obtain ⟨name, f⟩ := e
  rw [Loads.iff] at h
  rcases h.2.2 k v hm with h | ⟨a, ha, _⟩
  · rcases List.mem_cons.1 h with h | h
    · exact absurd h hk'
    · exact absurd h hk
  · rw [ha]; rfl

/-- **C57** finding: a run with an array-valued configuration entry makes `load_sweep` raise instead of being skipped. -/
theorem C57_array_raises (ref : PyDict Attr) (QOI : PyStr) (sweep : List PyStr) (base : PyStr) (f : H5File) (tr : List FV) (cfg : PyDict Attr)
    (it : List Int) (hr : readRun QOI (some f) = some (tr, cfg, it)) (k : PyStr) (xs : List FV) (hk : (k, .arr xs) ∈ cfg)
    (rest : List (PyStr × Option H5File)) :
    loadSweep ref QOI sweep ((base ++ ".h5".toList, some f) :: rest) = .error "ValueError" := by
  have hne : ∀ r, Attr.ne r (.arr xs) = none := by
    intro r
    cases r with
    | none => rfl
    | some a => cases a <;> rfl
  have : unexpectedDiffs ref ("run_name".toList :: sweep) cfg = none := by
    clear hr
    induction cfg with
    | nil => simp at hk
    | cons e cfg ih =>
      obtain ⟨k', v⟩ := e
      unfold unexpectedDiffs
      rcases List.mem_cons.1 hk with h | h
      · injection h with h1 h2
        subst h2
        rw [hne]
      · rw [ih h]
        cases Attr.ne (ref.get? k') v <;> rfl
  unfold loadSweep
  rw [if_neg (by rw [(endsWithH5_iff _).2 ⟨_, rfl⟩]; simp), hr]
  dsimp only
  rw [this]

/-- **C57** the iteration counts returned with a run are the multiples of its `save_every` from 0 up to but not including its `maxit`, in
increasing order. -/
theorem C57_iterations (ref : PyDict Attr) (QOI : PyStr) (sweep : List PyStr) (e : PyStr × Option H5File) (r : Run)
    (h : Loads ref QOI sweep e r) (maxit save : Int) (hm : r.cfg.get? "maxit".toList = some (.int maxit))
    (hs : r.cfg.get? "save_every".toList = some (.int save)) (hpos : 0 < save) :
    r.iters.Pairwise (· < ·) ∧ ∀ i, i ∈ r.iters ↔ 0 ≤ i ∧ i < maxit ∧ save ∣ i := by
  obtain ⟨base, f, tr, cfg, m, s, it, h1, h2, h3, h4, h5, h6, h7⟩ := h
  dsimp only at hm hs ⊢
  rw [h3] at hm
  rw [h4] at hs
  injection hm with hm
  injection hm with hm
  injection hs with hs
  injection hs with hs
  subst hm hs h6
  simp only [arange0, if_neg h5, Option.getD_some]
  constructor
  · rw [List.pairwise_map]
    refine List.Pairwise.imp ?_ List.pairwise_lt_range
    intro a b hab
    exact Int.mul_lt_mul_of_pos_right (by exact_mod_cast hab) hpos
  · intro i
    simp only [List.mem_map, List.mem_range, Int.fdiv_eq_ediv_of_nonneg _ hpos.le]
    have d1 := Int.mul_ediv_add_emod (-m) s
    have m1 := Int.emod_nonneg (-m) h5
    have m2 := Int.emod_lt_of_pos (-m) hpos
    constructor
    · rintro ⟨a, ha, rfl⟩
      have ha' : (a : Int) < -(-m / s) := by omega
      refine ⟨by positivity, ?_, Dvd.intro_left _ rfl⟩
      have : (a : Int) + 1 ≤ -(-m / s) := by omega
      nlinarith
    · rintro ⟨h0, h1, c, rfl⟩
      have hc : 0 ≤ c := by
        by_contra hc
        nlinarith
      refine ⟨c.toNat, ?_, ?_⟩
      · have : c < -(-m / s) := by
          by_contra hcc
          have : -(-m / s) ≤ c := by omega
          nlinarith
        omega
      · rw [Int.toNat_of_nonneg hc, Int.mul_comm]

/-- non-vacuity: a directory with two matching runs (one with the swept value of `eta`), one other run, an unreadable file and a text
file. -/
def demoRun (eta : Int) (nr : Int) : H5File :=
  ⟨[("force_trace".toList, [.fin 1, .fin 0])], some [("run_name".toList, .str "a".toList), ("maxit".toList, .int 10),
    ("save_every".toList, .int 5), ("eta".toList, .int eta), ("n_r".toList, .int nr)]⟩

example : Loads [("maxit".toList, .int 10), ("save_every".toList, .int 5), ("eta".toList, .int 0), ("n_r".toList, .num (.fin 8))]
    "force_trace".toList ["eta".toList] ("x.h5".toList, some (demoRun 3 8))
    ⟨[("run_name".toList, .str "a".toList), ("maxit".toList, .int 10), ("save_every".toList, .int 5), ("eta".toList, .int 3),
      ("n_r".toList, .int 8)], [.fin 1, .fin 0], [0, 5]⟩ := by
  refine .mk "x".toList (demoRun 3 8) _ _ 10 5 _ rfl rfl rfl rfl (by norm_num) rfl ?_
  intro k v hm
  simp only [List.mem_cons, List.not_mem_nil, or_false, Prod.mk.injEq] at hm
  rcases hm with ⟨rfl, rfl⟩ | ⟨rfl, rfl⟩ | ⟨rfl, rfl⟩ | ⟨rfl, rfl⟩ | ⟨rfl, rfl⟩
  · left; simp
  · right; exact ⟨_, rfl, .num _ _ (.fin (10 : Int)) (.fin (10 : Int)) (.int 10) (.int 10) rfl (by simp)⟩
  · right; exact ⟨_, rfl, .num _ _ (.fin (5 : Int)) (.fin (5 : Int)) (.int 5) (.int 5) rfl (by simp)⟩
  · left; simp
  · right; exact ⟨_, rfl, .num _ _ (.fin 8) (.fin (8 : Int)) (.num _) (.int 8) (by simp) (by simp)⟩

/-! ## C58 -/

section
variable {V H : Type} (cfg : RelaxConfig) (env : RelaxEnv V H) (start : ℝ)

/-- **C58** in the file written after any run that began with an empty trace, every trace dataset has exactly one value per entry of the
dataset `iterations`. -/
theorem C58_datasets_aligned (s : State V H) (k : Nat) :
    let t := (relaxAfter cfg env start s (emptyTrace V) k).trace
    ∀ name xs, (name, xs) ∈ traceDatasets t → xs.length = t.iterations.length := by
  intro t name xs hm
  obtain ⟨h1, h2, h3, h4, h5, h6, h7, h8, h9, _⟩ := C50_aligned cfg env start s (emptyTrace V) 0 k rfl rfl rfl rfl rfl rfl rfl rfl rfl rfl rfl
  simp only [traceDatasets, List.mem_cons, List.not_mem_nil, or_false, Prod.mk.injEq] at hm
  rcases hm with ⟨_, rfl⟩ | ⟨_, rfl⟩ | ⟨_, rfl⟩ | ⟨_, rfl⟩ | ⟨_, rfl⟩ | ⟨_, rfl⟩ | ⟨_, rfl⟩ | ⟨_, rfl⟩ | ⟨_, rfl⟩ | ⟨_, rfl⟩ <;>
    first | assumption | (simp only [List.length_map]; done) | (simp only [List.length_map]; assumption)

open Classical in
/-- **C58** and what the datasets of that file contain: under each name the initial value followed by the values of the states after the saved
iterations, in the order of `iterations`. -/
theorem C58_dataset_contents (s : State V H) (k : Nat) :
    let t := (relaxAfter cfg env start s (emptyTrace V) k).trace
    let L := savedIterations cfg env start s (emptyTrace V) k
    let st := fun i => (relaxAfter cfg env start s (emptyTrace V) i).state
    let file := fun name : String => PyDict.get? (traceDatasets t) name.toList
    file "iterations" = some (.fin 0 :: L.map (fun i : Nat => .fin (i : ℝ))) ∧
    file "force_trace" = some ((env.step cfg s).forceNorm :: L.map (fun i => (st i).forceNorm)) ∧
    file "velocity_trace" = some ((env.step cfg s).velocityNorm :: L.map (fun i => (st i).velocityNorm)) ∧
    file "energy_trace" = some (env.energy s.Bn :: L.map (fun i => env.energy (st i).Bn)) ∧
    file "helicity_trace" = some (env.helicity s.Bn :: L.map (fun i => env.helicity (st i).Bn)) ∧
    file "divergence_trace" = some (env.divergence s.Bn :: L.map (fun i => env.divergence (st i).Bn)) ∧
    file "picard_iterations" = some (.fin 0 :: L.map (fun i => .fin ((st i).picardIterations : ℝ))) ∧
    file "picard_errors" = some (.fin 0 :: L.map (fun i => (st i).picardResiduum)) ∧
    file "timesteps" = some (.fin s.dt :: L.map (fun i => .fin (st i).dt)) ∧
    file "wall_time_trace" = some (.fin (env.clock 0 - start) :: L.map (fun i => .fin (env.clock i - start))) := by
  intro t L st file
  obtain ⟨h1, h2, h3, h4, h5, h6, h7, h8, h9, h10, -⟩ := C50_trace cfg env start s (emptyTrace V) k
  have e1 : file "iterations" = some (t.iterations.map fun (n : Nat) => .fin n) := rfl
  have e2 : file "force_trace" = some t.force := rfl
  have e3 : file "velocity_trace" = some t.velocity := rfl
  have e4 : file "energy_trace" = some t.energy := rfl
  have e5 : file "helicity_trace" = some t.helicity := rfl
  have e6 : file "divergence_trace" = some t.divergence := rfl
  have e7 : file "picard_iterations" = some (t.picardIterations.map fun (n : Int) => .fin n) := rfl
  have e8 : file "picard_errors" = some t.picardErrors := rfl
  have e9 : file "timesteps" = some (t.timesteps.map .fin) := rfl
  have e10 : file "wall_time_trace" = some (t.wallTime.map .fin) := rfl
  rw [e1, e2, e3, e4, e5, e6, e7, e8, e9, e10]
  refine ⟨congrArg some ?_, congrArg some h2, congrArg some h3, congrArg some h4, congrArg some h5, congrArg some h6, congrArg some ?_,
    congrArg some h8, congrArg some ?_, congrArg some ?_⟩
  · refine (congrArg _ h1).trans ?_
    simp [emptyTrace, L]
  · refine (congrArg _ h7).trans ?_
    simp [emptyTrace, L, st]
  · refine (congrArg _ h9).trans ?_
    simp [emptyTrace, L, st]
  · refine (congrArg _ h10).trans ?_
    simp [emptyTrace, L]

/-- The number of entries of `np.arange(0, maxit, save_every)`. -/
theorem arange0_length (m s : Nat) (hs : 1 ≤ s) : ((arange0 m s).getD []).length = (m + s - 1) / s := by
  have h0 : (s : Int) ≠ 0 := by omega
  simp only [arange0, if_neg h0, Option.getD_some, List.length_map, List.length_range]
  have : -((-(m : Int)).fdiv s) = ((m + s - 1) / s : Nat) := by
    rw [Int.fdiv_eq_ediv_of_nonneg _ (by omega)]
    have e1 : ((m + s - 1) / s : Nat) = ((m + s - 1 : Nat) : Int) / s := by norm_cast
    rw [e1]
    have hc : ((m + s - 1 : Nat) : Int) = m + s - 1 := by omega
    rw [hc]
    have hpos : (0 : Int) < s := by omega
    have d1 := Int.mul_ediv_add_emod (-(m : Int)) s
    have m1 := Int.emod_nonneg (-(m : Int)) h0
    have m2 := Int.emod_lt_of_pos (-(m : Int)) hpos
    symm
    rw [Int.ediv_eq_iff_of_pos hpos]
    constructor <;> nlinarith
  rw [this, Int.toNat_natCast]

/-- The number of iterations `1..maxit` that are due to be saved. -/
theorem due_count (m s : Nat) (hs : 1 ≤ s) : ((List.range' 1 m).filter fun i => decide (i % s = 0 ∨ i = m)).length = (m + s - 1) / s := by
  have key : ∀ k, ((List.range' 1 k).filter fun i => decide (i % s = 0)).length = k / s := by
    intro k
    induction k with
    | zero => simp
    | succ k ih =>
      rw [List.range'_1_concat, List.filter_append, List.length_append, ih, Nat.succ_div]
      rw [show 1 + k = k + 1 by omega]
      by_cases h : s ∣ k + 1
      · rw [if_pos h]
        have : (k + 1) % s = 0 := Nat.mod_eq_zero_of_dvd h
        simp [this]
      · rw [if_neg h]
        have : ¬ (k + 1) % s = 0 := fun h' => h (Nat.dvd_of_mod_eq_zero h')
        simp [this]
  cases m with
  | zero =>
    simp only [List.range'_zero, List.filter_nil, List.length_nil]
    rw [Nat.div_eq_of_lt (by omega)]
  | succ k =>
    rw [List.range'_1_concat, List.filter_append, List.length_append]
    have e : ((List.range' 1 k).filter fun i => decide (i % s = 0 ∨ i = k + 1)) = (List.range' 1 k).filter fun i => decide (i % s = 0) := by
      apply List.filter_congr
      intro i hi
      rw [List.mem_range'_1] at hi
      have : ¬ i = k + 1 := by omega
      simp [this]
    rw [e, key, show 1 + k = k + 1 by omega]
    simp only [or_true, decide_true, List.filter_cons_of_pos, List.filter_nil, List.length_singleton]
    rw [show k + 1 + s - 1 = k + s by omega, Nat.add_div_right _ (by omega)]

/-- **C58** finding: the iteration axis that `load_sweep` builds for a run does not fit the saved trace: for a run in which every step
that is due to be saved was accepted, it is always one entry shorter than the trace. -/
theorem C58_sweep_axis_too_short (s : State V H) (hs : 1 ≤ cfg.saveEvery)
    (hacc : ∀ i, 1 ≤ i → i ≤ cfg.maxit → (i % cfg.saveEvery = 0 ∨ i = cfg.maxit) → Accepted cfg env start s (emptyTrace V) i) :
    (relaxAfter cfg env start s (emptyTrace V) cfg.maxit).trace.force.length =
      ((arange0 cfg.maxit cfg.saveEvery).getD []).length + 1 := by
  classical
  rw [arange0_length _ _ hs, ← due_count _ _ hs]
  have e := (C50_trace cfg env start s (emptyTrace V) cfg.maxit).2.1
  rw [e]
  simp only [emptyTrace, List.nil_append, List.length_cons, List.length_map]
  congr 2
  unfold savedIterations
  apply List.filter_congr
  intro i hi
  rw [List.mem_range'_1] at hi
  rw [decide_eq_decide]
  constructor
  · exact fun h => h.1
  · exact fun h => ⟨h, hacc i hi.1 (by omega) h⟩

/-- **C58** in general the trace has at most one value more than that axis has entries. -/
theorem C58_sweep_axis_bound (s : State V H) (hs : 1 ≤ cfg.saveEvery) :
    (relaxAfter cfg env start s (emptyTrace V) cfg.maxit).trace.force.length ≤
      ((arange0 cfg.maxit cfg.saveEvery).getD []).length + 1 := by
  classical
  rw [arange0_length _ _ hs, ← due_count _ _ hs]
  have e := (C50_trace cfg env start s (emptyTrace V) cfg.maxit).2.1
  rw [e]
  simp only [emptyTrace, List.nil_append, List.length_cons, List.length_map]
  apply Nat.add_le_add_right
  unfold savedIterations
  apply List.Sublist.length_le
  apply List.monotone_filter_right
  intro i h
  simp only [decide_eq_true_eq] at h ⊢
  exact h.1

end

/-- **C58** finding: the file written for `outdir + run_name + ".h5"` (`scripts/config_scripts/stell.py:134`) has the extension twice. -/
theorem C58_double_extension (run : PyStr) : traceFile (run ++ ".h5".toList) = run ++ ".h5.h5".toList := by
  unfold traceFile
  rw [List.append_assoc]
  rfl

/-- Case of `C57_result` and `C57_membership`: a directory with two runs, an unreadable file and a text file. -/
theorem case_scalar : AllScalar [("maxit".toList, .int 10), ("save_every".toList, .int 5), ("eta".toList, .int 0), ("n_r".toList, .num (.fin 8))]
    [("x.h5".toList, some (demoRun 3 8)), ("y.h5".toList, some (demoRun 3 9)), ("z.h5".toList, none), ("n.txt".toList, none)] := by
  have hrun : ∀ nr : Int, ∀ cfg, (demoRun 3 nr).config = some cfg → ∀ k v, (k, v) ∈ cfg → Scalar v := by
    intro nr cfg hc k v hm
    simp only [demoRun, Option.some.injEq] at hc
    rw [← hc] at hm
    simp only [List.mem_cons, List.not_mem_nil, or_false, Prod.mk.injEq] at hm
    rcases hm with ⟨-, rfl⟩ | ⟨-, rfl⟩ | ⟨-, rfl⟩ | ⟨-, rfl⟩ | ⟨-, rfl⟩ <;> (unfold Scalar; simp)
  refine ⟨?_, ?_⟩
  · intro k a h
    have hm := PyDict.mem_of_get? h
    simp only [List.mem_cons, List.not_mem_nil, or_false, Prod.mk.injEq] at hm
    rcases hm with ⟨-, rfl⟩ | ⟨-, rfl⟩ | ⟨-, rfl⟩ | ⟨-, rfl⟩ <;> (unfold Scalar; simp)
  · intro e he f hf
    simp only [List.mem_cons, List.not_mem_nil, or_false] at he
    rcases he with rfl | rfl | rfl | rfl
    · cases hf; exact hrun 8
    · cases hf; exact hrun 9
    · cases hf
    · cases hf

example := C57_result _ "force_trace".toList ["eta".toList] _ case_scalar
example := C57_membership _ "force_trace".toList ["eta".toList] _ case_scalar
/-- Case of `C57_array_raises`. -/
example := C57_array_raises [] "force_trace".toList [] "x".toList
  ⟨[("force_trace".toList, [.fin 1])], some [("maxit".toList, .int 10), ("save_every".toList, .int 5), ("v".toList, .arr [.fin 1])]⟩ [.fin 1]
  [("maxit".toList, .int 10), ("save_every".toList, .int 5), ("v".toList, .arr [.fin 1])] [0, 5] rfl "v".toList [.fin 1] (by simp) []
/-- Case of `C58_sweep_axis_bound` and `C58_sweep_axis_too_short`: a run that accepts every step. -/
example := C58_sweep_axis_bound (caseCfg 1) (caseEnv 0) 0 caseState (by norm_num [caseCfg])

end Mrx.Props
