import Verif.Model.Lifecycle
import Verif.Proofs.Exists

/-!
# C80: assembling a `DeRhamSequence` in any order, any number of times
-/

set_option linter.unusedSectionVars false
set_option linter.unusedVariables false

namespace Mrx.Props
open Matrix Mrx

/-- The attributes of a `DeRhamSequence` by name (`tables` stands for the six arrays of `evaluate_1d`). -/
inductive AttrName where
  | tables | M0 | M1 | M2 | M3 | D0 | strongGrad | weakDiv | D1 | strongCurl | weakCurl | D2 | strongDiv | weakGrad
  | dd0 | dd1 | dd2 | dd3 | M12 | P12 | P03 | leray
  deriving DecidableEq

/-- `hasattr`. -/
def AttrName.set {D : DeRham} (a : Attrs D) : AttrName → Bool
  | .tables => a.tables
  | .M0 => a.M0.isSome
  | .M1 => a.M1.isSome
  | .M2 => a.M2.isSome
  | .M3 => a.M3.isSome
  | .D0 => a.D0.isSome
  | .strongGrad => a.strongGrad.isSome
  | .weakDiv => a.weakDiv.isSome
  | .D1 => a.D1.isSome
  | .strongCurl => a.strongCurl.isSome
  | .weakCurl => a.weakCurl.isSome
  | .D2 => a.D2.isSome
  | .strongDiv => a.strongDiv.isSome
  | .weakGrad => a.weakGrad.isSome
  | .dd0 => a.dd0.isSome
  | .dd1 => a.dd1.isSome
  | .dd2 => a.dd2.isSome
  | .dd3 => a.dd3.isSome
  | .M12 => a.M12.isSome
  | .P12 => a.P12.isSome
  | .P03 => a.P03.isSome
  | .leray => a.leray.isSome

/-- What must be there before a call. -/
def needs : Call → List AttrName
  | .evaluate1d => []
  | .assembleM0 => [.tables]
  | .assembleM1 => [.tables]
  | .assembleM2 => [.tables]
  | .assembleM3 => [.tables]
  | .assembleD0 => [.tables, .M0, .M1]
  | .assembleD1 => [.tables, .M1, .M2]
  | .assembleD2 => [.tables, .M2, .M3]
  | .assembleDd0 => [.tables, .M0]
  | .assembleDd1 => [.tables, .M1, .strongGrad, .weakDiv]
  | .assembleDd2 => [.tables, .M2, .strongCurl, .weakCurl]
  | .assembleDd3 => [.strongDiv, .weakGrad]
  | .assembleP12 => [.tables, .M1]
  | .assembleP03 => [.tables, .M0]
  | .assembleLeray => [.M2, .strongDiv, .weakGrad, .dd3]

/-- What is there after a successful call. -/
def provides : Call → List AttrName
  | .evaluate1d => [.tables]
  | .assembleM0 => [.M0]
  | .assembleM1 => [.M1]
  | .assembleM2 => [.M2]
  | .assembleM3 => [.M3]
  | .assembleD0 => [.D0, .strongGrad, .weakDiv]
  | .assembleD1 => [.D1, .strongCurl, .weakCurl]
  | .assembleD2 => [.D2, .strongDiv, .weakGrad]
  | .assembleDd0 => [.dd0]
  | .assembleDd1 => [.dd1]
  | .assembleDd2 => [.dd2]
  | .assembleDd3 => [.dd3]
  | .assembleP12 => [.M12, .P12]
  | .assembleP03 => [.P03]
  | .assembleLeray => [.leray]

/-- Every attribute that is set has the value it is documented to have. -/
structure Right {D : DeRham} (pinv : Matrix (Fin D.m3) (Fin D.m3) ℝ → Matrix (Fin D.m3) (Fin D.m3) ℝ) (a : Attrs D) : Prop where
  M0 : ∀ X, a.M0 = some X → X = D.M0
  M1 : ∀ X, a.M1 = some X → X = D.M1
  M2 : ∀ X, a.M2 = some X → X = D.M2
  M3 : ∀ X, a.M3 = some X → X = D.M3
  D0 : ∀ X, a.D0 = some X → X = D.D0
  strongGrad : ∀ X, a.strongGrad = some X → X = D.strongGrad
  weakDiv : ∀ X, a.weakDiv = some X → X = D.weakDiv
  D1 : ∀ X, a.D1 = some X → X = D.D1
  strongCurl : ∀ X, a.strongCurl = some X → X = D.strongCurl
  weakCurl : ∀ X, a.weakCurl = some X → X = D.weakCurl
  D2 : ∀ X, a.D2 = some X → X = D.D2
  strongDiv : ∀ X, a.strongDiv = some X → X = D.strongDiv
  weakGrad : ∀ X, a.weakGrad = some X → X = D.weakGrad
  dd0 : ∀ X, a.dd0 = some X → X = D.dd0
  dd1 : ∀ X, a.dd1 = some X → X = D.dd1
  dd2 : ∀ X, a.dd2 = some X → X = D.dd2
  dd3 : ∀ X, a.dd3 = some X → X = D.dd3
  M12 : ∀ X, a.M12 = some X → X = D.M12
  P12 : ∀ X, a.P12 = some X → X = D.P12
  P03 : ∀ X, a.P03 = some X → X = D.P03
  leray : ∀ X, a.leray = some X → X = D.leray (pinv D.dd3)

variable {D : DeRham} (pinv : Matrix (Fin D.m3) (Fin D.m3) ℝ → Matrix (Fin D.m3) (Fin D.m3) ℝ)

theorem runStmts_inv (I : Attrs D → Prop) : ∀ (l : List (Stmt D)) (a : Attrs D), I a → (∀ s ∈ l, ∀ a a', I a → s a = some a' → I a') →
    I (runStmts l a).1
  | [], a, h, _ => h
  | s :: rest, a, h, hs => by
    unfold runStmts
    split
    · exact h
    · next a' e => exact runStmts_inv I rest a' (hs s (List.mem_cons_self ..) a a' h e) fun t ht => hs t (List.mem_cons_of_mem _ ht)

theorem right_empty : Right pinv ({} : Attrs D) := by
  constructor <;> intro X h <;> exact absurd h (by simp)

theorem right_stmt (c : Call) : ∀ s ∈ c.body pinv, ∀ a a', Right pinv a → s a = some a' → Right pinv a' := by
  intro s hs a a' h e
  cases c with
  | evaluate1d =>
    simp only [Call.body, List.mem_cons, List.not_mem_nil, or_false] at hs
    subst hs
    obtain rfl := Option.some.inj e
    exact { h with }
  | assembleM0 =>
    simp only [Call.body, List.mem_cons, List.not_mem_nil, or_false] at hs
    subst hs
    unfold needTables at e
    split at e
    · obtain rfl := Option.some.inj e
      exact { h with M0 := fun X hX => (Option.some.inj hX).symm }
    · exact absurd e.symm (Option.some_ne_none _)
  | assembleM1 =>
    simp only [Call.body, List.mem_cons, List.not_mem_nil, or_false] at hs
    subst hs
    unfold needTables at e
    split at e
    · obtain rfl := Option.some.inj e
      exact { h with M1 := fun X hX => (Option.some.inj hX).symm }
    · exact absurd e.symm (Option.some_ne_none _)
  | assembleM2 =>
    simp only [Call.body, List.mem_cons, List.not_mem_nil, or_false] at hs
    subst hs
    unfold needTables at e
    split at e
    · obtain rfl := Option.some.inj e
      exact { h with M2 := fun X hX => (Option.some.inj hX).symm }
    · exact absurd e.symm (Option.some_ne_none _)
  | assembleM3 =>
    simp only [Call.body, List.mem_cons, List.not_mem_nil, or_false] at hs
    subst hs
    unfold needTables at e
    split at e
    · obtain rfl := Option.some.inj e
      exact { h with M3 := fun X hX => (Option.some.inj hX).symm }
    · exact absurd e.symm (Option.some_ne_none _)
  | assembleD0 =>
    simp only [Call.body, List.mem_cons, List.not_mem_nil, or_false] at hs
    rcases hs with rfl | rfl | rfl
    · unfold needTables at e
      split at e
      · obtain rfl := Option.some.inj e
        exact { h with D0 := fun X hX => (Option.some.inj hX).symm }
      · exact absurd e.symm (Option.some_ne_none _)
    · beta_reduce at e
      split at e
      · rename_i x0 x1 h0 h1
        obtain rfl := h.M1 _ h0
        obtain rfl := h.D0 _ h1
        obtain rfl := Option.some.inj e
        exact { h with strongGrad := fun X hX => (Option.some.inj hX).symm }
      · exact absurd e.symm (Option.some_ne_none _)
    · beta_reduce at e
      split at e
      · rename_i x0 x1 h0 h1
        obtain rfl := h.M0 _ h0
        obtain rfl := h.D0 _ h1
        obtain rfl := Option.some.inj e
        exact { h with weakDiv := fun X hX => (Option.some.inj hX).symm }
      · exact absurd e.symm (Option.some_ne_none _)
  | assembleD1 =>
    simp only [Call.body, List.mem_cons, List.not_mem_nil, or_false] at hs
    rcases hs with rfl | rfl | rfl
    · unfold needTables at e
      split at e
      · obtain rfl := Option.some.inj e
        exact { h with D1 := fun X hX => (Option.some.inj hX).symm }
      · exact absurd e.symm (Option.some_ne_none _)
    · beta_reduce at e
      split at e
      · rename_i x0 x1 h0 h1
        obtain rfl := h.M2 _ h0
        obtain rfl := h.D1 _ h1
        obtain rfl := Option.some.inj e
        exact { h with strongCurl := fun X hX => (Option.some.inj hX).symm }
      · exact absurd e.symm (Option.some_ne_none _)
    · beta_reduce at e
      split at e
      · rename_i x0 x1 h0 h1
        obtain rfl := h.M1 _ h0
        obtain rfl := h.D1 _ h1
        obtain rfl := Option.some.inj e
        exact { h with weakCurl := fun X hX => (Option.some.inj hX).symm }
      · exact absurd e.symm (Option.some_ne_none _)
  | assembleD2 =>
    simp only [Call.body, List.mem_cons, List.not_mem_nil, or_false] at hs
    rcases hs with rfl | rfl | rfl
    · unfold needTables at e
      split at e
      · obtain rfl := Option.some.inj e
        exact { h with D2 := fun X hX => (Option.some.inj hX).symm }
      · exact absurd e.symm (Option.some_ne_none _)
    · beta_reduce at e
      split at e
      · rename_i x0 x1 h0 h1
        obtain rfl := h.M3 _ h0
        obtain rfl := h.D2 _ h1
        obtain rfl := Option.some.inj e
        exact { h with strongDiv := fun X hX => (Option.some.inj hX).symm }
      · exact absurd e.symm (Option.some_ne_none _)
    · beta_reduce at e
      split at e
      · rename_i x0 x1 h0 h1
        obtain rfl := h.M2 _ h0
        obtain rfl := h.D2 _ h1
        obtain rfl := Option.some.inj e
        exact { h with weakGrad := fun X hX => (Option.some.inj hX).symm }
      · exact absurd e.symm (Option.some_ne_none _)
  | assembleDd0 =>
    simp only [Call.body, List.mem_cons, List.not_mem_nil, or_false] at hs
    subst hs
    unfold needTables at e
    beta_reduce at e
    split at e
    case isFalse => exact absurd e.symm (Option.some_ne_none _)
    split at e
    · rename_i x0 h0
      obtain rfl := h.M0 _ h0
      obtain rfl := Option.some.inj e
      exact { h with dd0 := fun X hX => (Option.some.inj hX).symm }
    · exact absurd e.symm (Option.some_ne_none _)
  | assembleDd1 =>
    simp only [Call.body, List.mem_cons, List.not_mem_nil, or_false] at hs
    subst hs
    unfold needTables at e
    beta_reduce at e
    split at e
    case isFalse => exact absurd e.symm (Option.some_ne_none _)
    split at e
    · rename_i x0 x1 x2 h0 h1 h2
      obtain rfl := h.M1 _ h0
      obtain rfl := h.strongGrad _ h1
      obtain rfl := h.weakDiv _ h2
      obtain rfl := Option.some.inj e
      exact { h with dd1 := fun X hX => (Option.some.inj hX).symm }
    · exact absurd e.symm (Option.some_ne_none _)
  | assembleDd2 =>
    simp only [Call.body, List.mem_cons, List.not_mem_nil, or_false] at hs
    subst hs
    unfold needTables at e
    beta_reduce at e
    split at e
    case isFalse => exact absurd e.symm (Option.some_ne_none _)
    split at e
    · rename_i x0 x1 x2 h0 h1 h2
      obtain rfl := h.M2 _ h0
      obtain rfl := h.strongCurl _ h1
      obtain rfl := h.weakCurl _ h2
      obtain rfl := Option.some.inj e
      exact { h with dd2 := fun X hX => (Option.some.inj hX).symm }
    · exact absurd e.symm (Option.some_ne_none _)
  | assembleDd3 =>
    simp only [Call.body, List.mem_cons, List.not_mem_nil, or_false] at hs
    subst hs
    beta_reduce at e
    split at e
    · rename_i x0 x1 h0 h1
      obtain rfl := h.strongDiv _ h0
      obtain rfl := h.weakGrad _ h1
      obtain rfl := Option.some.inj e
      exact { h with dd3 := fun X hX => (Option.some.inj hX).symm }
    · exact absurd e.symm (Option.some_ne_none _)
  | assembleP12 =>
    simp only [Call.body, List.mem_cons, List.not_mem_nil, or_false] at hs
    rcases hs with rfl | rfl
    · unfold needTables at e
      split at e
      · obtain rfl := Option.some.inj e
        exact { h with M12 := fun X hX => (Option.some.inj hX).symm }
      · exact absurd e.symm (Option.some_ne_none _)
    · beta_reduce at e
      split at e
      · rename_i x0 x1 h0 h1
        obtain rfl := h.M1 _ h0
        obtain rfl := h.M12 _ h1
        obtain rfl := Option.some.inj e
        exact { h with P12 := fun X hX => (Option.some.inj hX).symm }
      · exact absurd e.symm (Option.some_ne_none _)
  | assembleP03 =>
    simp only [Call.body, List.mem_cons, List.not_mem_nil, or_false] at hs
    subst hs
    unfold needTables at e
    beta_reduce at e
    split at e
    case isFalse => exact absurd e.symm (Option.some_ne_none _)
    split at e
    · rename_i x0 h0
      obtain rfl := h.M0 _ h0
      obtain rfl := Option.some.inj e
      exact { h with P03 := fun X hX => (Option.some.inj hX).symm }
    · exact absurd e.symm (Option.some_ne_none _)
  | assembleLeray =>
    simp only [Call.body, List.mem_cons, List.not_mem_nil, or_false] at hs
    subst hs
    beta_reduce at e
    split at e
    · rename_i x0 x1 x2 x3 h0 h1 h2 h3
      obtain rfl := h.M2 _ h0
      obtain rfl := h.weakGrad _ h1
      obtain rfl := h.dd3 _ h2
      obtain rfl := h.strongDiv _ h3
      obtain rfl := Option.some.inj e
      exact { h with leray := fun X hX => (Option.some.inj hX).symm }
    · exact absurd e.symm (Option.some_ne_none _)

theorem call_raises (c : Call) (a : Attrs D) : (c.run pinv a).2 = !((needs c).all fun k => k.set a) := by
  rcases a with ⟨t, M0, M1, M2, M3, D0, sg, wd, D1, sc, wc, D2, sd, wg, e0, e1, e2, e3, M12, P12, P03, le⟩
  cases c
  case evaluate1d => rfl
  case assembleM0 => cases t <;> rfl
  case assembleM1 => cases t <;> rfl
  case assembleM2 => cases t <;> rfl
  case assembleM3 => cases t <;> rfl
  case assembleD0 => cases t <;> cases M0 <;> cases M1 <;> rfl
  case assembleD1 => cases t <;> cases M1 <;> cases M2 <;> rfl
  case assembleD2 => cases t <;> cases M2 <;> cases M3 <;> rfl
  case assembleDd0 => cases t <;> cases M0 <;> rfl
  case assembleDd1 => cases t <;> cases M1 <;> cases sg <;> cases wd <;> rfl
  case assembleDd2 => cases t <;> cases M2 <;> cases sc <;> cases wc <;> rfl
  case assembleDd3 => cases sd <;> cases wg <;> rfl
  case assembleP12 => cases t <;> cases M1 <;> rfl
  case assembleP03 => cases t <;> cases M0 <;> rfl
  case assembleLeray => cases M2 <;> cases sd <;> cases wg <;> cases e3 <;> rfl

theorem call_sets (c : Call) (a : Attrs D) (h : (c.run pinv a).2 = false) (k : AttrName) :
    k.set (c.run pinv a).1 = (k.set a || decide (k ∈ provides c)) := by
  rcases a with ⟨t, M0, M1, M2, M3, D0, sg, wd, D1, sc, wc, D2, sd, wg, e0, e1, e2, e3, M12, P12, P03, le⟩
  have f : ∀ {p : Prop}, true = false → p := fun h => absurd h (by decide)
  have g : ∀ b : Bool, b = (b || false) := fun b => (Bool.or_false b).symm
  have g' : ∀ b : Bool, true = (b || true) := fun b => (Bool.or_true b).symm
  cases c
  case evaluate1d => cases k <;> first | exact g _ | exact g' _
  case assembleM0 => cases t <;> first | exact f h | cases k <;> first | exact g _ | exact g' _
  case assembleM1 => cases t <;> first | exact f h | cases k <;> first | exact g _ | exact g' _
  case assembleM2 => cases t <;> first | exact f h | cases k <;> first | exact g _ | exact g' _
  case assembleM3 => cases t <;> first | exact f h | cases k <;> first | exact g _ | exact g' _
  case assembleD0 => cases t <;> cases M0 <;> cases M1 <;> first | exact f h | cases k <;> first | exact g _ | exact g' _
  case assembleD1 => cases t <;> cases M1 <;> cases M2 <;> first | exact f h | cases k <;> first | exact g _ | exact g' _
  case assembleD2 => cases t <;> cases M2 <;> cases M3 <;> first | exact f h | cases k <;> first | exact g _ | exact g' _
  case assembleDd0 => cases t <;> cases M0 <;> first | exact f h | cases k <;> first | exact g _ | exact g' _
  case assembleDd1 => cases t <;> cases M1 <;> cases sg <;> cases wd <;> first | exact f h | cases k <;> first | exact g _ | exact g' _
  case assembleDd2 => cases t <;> cases M2 <;> cases sc <;> cases wc <;> first | exact f h | cases k <;> first | exact g _ | exact g' _
  case assembleDd3 => cases sd <;> cases wg <;> first | exact f h | cases k <;> first | exact g _ | exact g' _
  case assembleP12 => cases t <;> cases M1 <;> first | exact f h | cases k <;> first | exact g _ | exact g' _
  case assembleP03 => cases t <;> cases M0 <;> first | exact f h | cases k <;> first | exact g _ | exact g' _
  case assembleLeray => cases M2 <;> cases sd <;> cases wg <;> cases e3 <;> first | exact f h | cases k <;> first | exact g _ | exact g' _

/-- Nothing is ever unset, not even by a call that raises. -/
theorem call_mono (c : Call) (a : Attrs D) (k : AttrName) (h : k.set a = true) : k.set (c.run pinv a).1 = true := by
  refine runStmts_inv (fun a => k.set a = true) _ a h fun s hs a a' h e => ?_
  cases c <;> simp only [Call.body, List.mem_cons, List.not_mem_nil, or_false] at hs <;>
    first | (obtain rfl := hs) | (rcases hs with rfl | rfl | rfl) | (rcases hs with rfl | rfl)
  all_goals
    simp only [needTables] at e
    repeat' split at e
    all_goals first
      | exact absurd e.symm (Option.some_ne_none _)
      | (obtain rfl := Option.some.inj e
         cases k <;> first | exact h | rfl)

/-- **C80** whatever methods were called before, in whatever order, how often, and with exceptions caught in between: every attribute that is
set has its documented value. -/
theorem C80_values (h : List Call) : Right pinv (runHistory pinv h ({} : Attrs D)) := by
  have : ∀ (h : List Call) (a : Attrs D), Right pinv a → Right pinv (runHistory pinv h a) := by
    intro h
    induction h with
    | nil => exact fun a ha => ha
    | cons c h ih => exact fun a ha => ih _ (runStmts_inv _ _ a ha (right_stmt pinv c))
  exact this h _ (right_empty pinv)

/-- **C80** a call raises exactly if something it needs is missing; otherwise it sets what it provides and nothing else; and no call,
successful or not, unsets anything. -/
theorem C80_calls (c : Call) (a : Attrs D) :
    ((c.run pinv a).2 = true ↔ ∃ k ∈ needs c, k.set a = false) ∧
    ((c.run pinv a).2 = false → ∀ k : AttrName, k.set (c.run pinv a).1 = true ↔ k.set a = true ∨ k ∈ provides c) ∧
    ∀ k : AttrName, k.set a = true → k.set (c.run pinv a).1 = true := by
  refine ⟨?_, fun h k => ?_, call_mono pinv c a⟩
  · rw [call_raises]
    simp
  · rw [call_sets pinv c a h k]
    simp

/-- Every call finds what it needs among what is there (`there`) and what the calls before it provide. -/
def WellOrdered : List AttrName → List Call → Prop
  | _, [] => True
  | there, c :: rest => (∀ k ∈ needs c, k ∈ there) ∧ WellOrdered (there ++ provides c) rest

/-- **C80** any well-ordered sequence of calls runs without exception and sets everything its calls provide, from every state that has the
attributes assumed at the start. -/
theorem C80_well_ordered (l : List Call) (there : List AttrName) (hl : WellOrdered there l) (a : Attrs D) (ha : ∀ k ∈ there, k.set a = true) :
    (runCalls pinv l a).2 = false ∧ (∀ k ∈ there, k.set (runCalls pinv l a).1 = true) ∧
    ∀ c ∈ l, ∀ k ∈ provides c, k.set (runCalls pinv l a).1 = true := by
  induction l generalizing there a with
  | nil => exact ⟨rfl, ha, fun c hc => absurd hc (List.not_mem_nil)⟩
  | cons c l ih =>
    obtain ⟨h1, h2⟩ := hl
    obtain ⟨c1, c2, c3⟩ := C80_calls pinv c a
    have e : (c.run pinv a).2 = false := by
      rw [Bool.eq_false_iff]
      intro hn
      obtain ⟨k, hk, e⟩ := c1.mp hn
      rw [ha k (h1 k hk)] at e
      exact absurd e (by decide)
    obtain ⟨i1, i2, i3⟩ := ih _ h2 (c.run pinv a).1 fun k hk => by
      rw [c2 e k]
      exact (List.mem_append.mp hk).imp (ha k) id
    have r : runCalls pinv (c :: l) a = runCalls pinv l (c.run pinv a).1 := by
      rw [runCalls]
      split
      · next a' e' => rw [e'] at e; exact Bool.noConfusion (show true = false from e)
      · next a' e' => rw [e']
    rw [r]
    refine ⟨i1, fun k hk => i2 k (List.mem_append_left _ hk), fun c' hc' k hk => ?_⟩
    rcases List.mem_cons.mp hc' with rfl | hc'
    · exact i2 k (List.mem_append_right _ hk)
    · exact i3 c' hc' k hk

/-- **C80** what the scripts do, `evaluate_1d(); assemble_all(); assemble_leray_projection()`, never raises, from whatever state, and then all
attributes are set. -/
theorem C80_assemble_all (h : List Call) (k : AttrName) :
    (runCalls pinv (.evaluate1d :: assembleAll ++ [.assembleLeray]) (runHistory pinv h ({} : Attrs D))).2 = false ∧
    k.set (runCalls pinv (.evaluate1d :: assembleAll ++ [.assembleLeray]) (runHistory pinv h ({} : Attrs D))).1 = true := by
  have w : WellOrdered [] (.evaluate1d :: assembleAll ++ [.assembleLeray]) := by
    simp [WellOrdered, assembleAll, needs, provides]
  obtain ⟨a, b, c⟩ := C80_well_ordered pinv _ _ w (runHistory pinv h ({} : Attrs D)) (by simp)
  refine ⟨a, ?_⟩
  have : ∃ c ∈ (.evaluate1d :: assembleAll ++ [.assembleLeray] : List Call), k ∈ provides c := by
    cases k <;> decide
  obtain ⟨x, hx, hk⟩ := this
  exact c x hx k hk

/-- **C80** without `evaluate_1d`, `assemble_all` raises at once and leaves the object as it was. -/
theorem C80_without_tables (a : Attrs D) (h : a.tables = false) : runCalls pinv assembleAll a = (a, true) := by
  have : Call.run pinv .assembleM0 a = (a, true) := by
    simp [Call.run, Call.body, runStmts, needTables, h]
  simp only [assembleAll, runCalls, this]

/-- **C80** a call that raises may leave part of its results: `assemble_d0` with only the 1-form mass matrix sets `strong_grad`, which is
usable, but not `weak_div`. -/
theorem C80_unfinished_call (D : DeRham) (pinv : Matrix (Fin D.m3) (Fin D.m3) ℝ → Matrix (Fin D.m3) (Fin D.m3) ℝ) :
    (Call.run pinv .assembleD0 (runHistory pinv [.evaluate1d, .assembleM1] ({} : Attrs D))).2 = true ∧
    (Call.run pinv .assembleD0 (runHistory pinv [.evaluate1d, .assembleM1] ({} : Attrs D))).1.strongGrad = some D.strongGrad ∧
    (Call.run pinv .assembleD0 (runHistory pinv [.evaluate1d, .assembleM1] ({} : Attrs D))).1.weakDiv = none :=
  ⟨rfl, rfl, rfl⟩

/-- non-vacuity: another order, with only what the vector potential needs. -/
example : WellOrdered [] [.evaluate1d, .assembleM2, .assembleM1, .assembleD1, .assembleM0, .assembleD0, .assembleDd1] := by
  simp [WellOrdered, needs, provides]

end Mrx.Props
