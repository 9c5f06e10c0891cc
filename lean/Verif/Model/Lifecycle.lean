import Verif.Model.Assembly

/-!
# Histories of method calls on a `DeRhamSequence`

The assembly methods of `DeRhamSequence` store their results as attributes of the object and read attributes stored by earlier calls. A
missing attribute raises `AttributeError`; assignments made before that remain. `Attrs D` are the attributes of an object whose
constructor arguments determine `D`; `none` = not set.

Simplifications: `evaluate_1d` sets six attributes together; `D0`, `D1`, `D2`, `M12` are modelled, the cross products are not (their
constructors read attributes of `__init__` only, C38).
-/

namespace Mrx
open Matrix

/-- The attributes set by the assembly methods; `mrx/derham_sequence.py:114-130, 356-567`. -/
structure Attrs (D : DeRham) where
  tables : Bool := false
  M0 : Option (Matrix (Fin D.m0) (Fin D.m0) ℝ) := none
  M1 : Option (Matrix (Fin D.m1) (Fin D.m1) ℝ) := none
  M2 : Option (Matrix (Fin D.m2) (Fin D.m2) ℝ) := none
  M3 : Option (Matrix (Fin D.m3) (Fin D.m3) ℝ) := none
  D0 : Option (Matrix (Fin D.m1) (Fin D.m0) ℝ) := none
  strongGrad : Option (Matrix (Fin D.m1) (Fin D.m0) ℝ) := none
  weakDiv : Option (Matrix (Fin D.m0) (Fin D.m1) ℝ) := none
  D1 : Option (Matrix (Fin D.m2) (Fin D.m1) ℝ) := none
  strongCurl : Option (Matrix (Fin D.m2) (Fin D.m1) ℝ) := none
  weakCurl : Option (Matrix (Fin D.m1) (Fin D.m2) ℝ) := none
  D2 : Option (Matrix (Fin D.m3) (Fin D.m2) ℝ) := none
  strongDiv : Option (Matrix (Fin D.m3) (Fin D.m2) ℝ) := none
  weakGrad : Option (Matrix (Fin D.m2) (Fin D.m3) ℝ) := none
  dd0 : Option (Matrix (Fin D.m0) (Fin D.m0) ℝ) := none
  dd1 : Option (Matrix (Fin D.m1) (Fin D.m1) ℝ) := none
  dd2 : Option (Matrix (Fin D.m2) (Fin D.m2) ℝ) := none
  dd3 : Option (Matrix (Fin D.m3) (Fin D.m3) ℝ) := none
  M12 : Option (Matrix (Fin D.m1) (Fin D.m2) ℝ) := none
  P12 : Option (Matrix (Fin D.m1) (Fin D.m2) ℝ) := none
  P03 : Option (Matrix (Fin D.m0) (Fin D.m3) ℝ) := none
  leray : Option (Matrix (Fin D.m2) (Fin D.m2) ℝ) := none

/-- The methods a user can call. -/
inductive Call where
  | evaluate1d | assembleM0 | assembleM1 | assembleM2 | assembleM3 | assembleD0 | assembleD1 | assembleD2
  | assembleDd0 | assembleDd1 | assembleDd2 | assembleDd3 | assembleP12 | assembleP03 | assembleLeray
  deriving DecidableEq

section
variable {D : DeRham}

/-- One statement of a method: `none` for `AttributeError`. -/
abbrev Stmt (D : DeRham) := Attrs D → Option (Attrs D)

/-- An expression that calls a getter needs the tables of `evaluate_1d`. -/
def needTables (f : Attrs D → Option (Attrs D)) : Stmt D := fun a => if a.tables then f a else none

/-- The body of a method: statements in order. `pinv` is `jnp.linalg.pinv`. -/
noncomputable def Call.body (pinv : Matrix (Fin D.m3) (Fin D.m3) ℝ → Matrix (Fin D.m3) (Fin D.m3) ℝ) : Call → List (Stmt D)
  -- `mrx/derham_sequence.py:114-130`
  | .evaluate1d => [fun a => some { a with tables := true }]
  -- `mrx/derham_sequence.py:356-364`
  | .assembleM0 => [needTables fun a => some { a with M0 := some (D.E0 * assemble D.S.getLambda0 D.S.getLambda0 D.nq 1 D.W0 D.S.L0.dims.n D.S.L0.dims.n * D.E0ᵀ) }]
  -- `mrx/derham_sequence.py:366-374`
  | .assembleM1 => [needTables fun a => some { a with M1 := some (D.E1 * assemble D.S.getLambda1 D.S.getLambda1 D.nq 3 D.W1 D.S.L1.dims.n D.S.L1.dims.n * D.E1ᵀ) }]
  -- `mrx/derham_sequence.py:376-384`
  | .assembleM2 => [needTables fun a => some { a with M2 := some (D.E2 * assemble D.S.getLambda2 D.S.getLambda2 D.nq 3 D.W2 D.S.L2.dims.n D.S.L2.dims.n * D.E2ᵀ) }]
  -- `mrx/derham_sequence.py:386-394`
  | .assembleM3 => [needTables fun a => some { a with M3 := some (D.E3 * assemble D.S.getLambda3 D.S.getLambda3 D.nq 1 D.W3 D.S.L3.dims.n D.S.L3.dims.n * D.E3ᵀ) }]
  -- `mrx/derham_sequence.py:396-409`
  | .assembleD0 => [
      needTables fun a => some { a with D0 := some (D.E1 * assemble D.S.getLambda1 D.S.getDLambda0 D.nq 3 D.W1 D.S.L1.dims.n D.S.L0.dims.n * D.E0ᵀ) },
      fun a => match a.M1, a.D0 with
        | some M1, some D0 => some { a with strongGrad := some (solve M1 D0) }
        | _, _ => none,
      fun a => match a.M0, a.D0 with
        | some M0, some D0 => some { a with weakDiv := some (-solve M0ᵀ D0ᵀ) }
        | _, _ => none]
  -- `mrx/derham_sequence.py:411-424`
  | .assembleD1 => [
      needTables fun a => some { a with D1 := some (D.E2 * assemble D.S.getLambda2 D.S.getDLambda1 D.nq 3 D.W2 D.S.L2.dims.n D.S.L1.dims.n * D.E1ᵀ) },
      fun a => match a.M2, a.D1 with
        | some M2, some D1 => some { a with strongCurl := some (solve M2 D1) }
        | _, _ => none,
      fun a => match a.M1, a.D1 with
        | some M1, some D1 => some { a with weakCurl := some (solve M1ᵀ D1ᵀ) }
        | _, _ => none]
  -- `mrx/derham_sequence.py:426-439`
  | .assembleD2 => [
      needTables fun a => some { a with D2 := some (D.E3 * assemble D.S.getLambda3 D.S.getDLambda2 D.nq 1 D.W3 D.S.L3.dims.n D.S.L2.dims.n * D.E2ᵀ) },
      fun a => match a.M3, a.D2 with
        | some M3, some D2 => some { a with strongDiv := some (solve M3 D2) }
        | _, _ => none,
      fun a => match a.M2, a.D2 with
        | some M2, some D2 => some { a with weakGrad := some (-solve M2ᵀ D2ᵀ) }
        | _, _ => none]
  -- `mrx/derham_sequence.py:441-452`
  | .assembleDd0 => [needTables fun a => match a.M0 with
      | some M0 => some { a with dd0 := some (solve M0
          (D.E0 * assemble D.S.getDLambda0 D.S.getDLambda0 D.nq 3 D.W1 D.S.L0.dims.n D.S.L0.dims.n * D.E0ᵀ)) }
      | none => none]
  -- `mrx/derham_sequence.py:454-468`
  | .assembleDd1 => [needTables fun a => match a.M1, a.strongGrad, a.weakDiv with
      | some M1, some G, some V => some { a with dd1 := some (solve M1
          (D.E1 * assemble D.S.getDLambda1 D.S.getDLambda1 D.nq 3 D.W2 D.S.L1.dims.n D.S.L1.dims.n * D.E1ᵀ) - G * V) }
      | _, _, _ => none]
  -- `mrx/derham_sequence.py:470-484`
  | .assembleDd2 => [needTables fun a => match a.M2, a.strongCurl, a.weakCurl with
      | some M2, some C, some V => some { a with dd2 := some (solve M2
          (D.E2 * assemble D.S.getDLambda2 D.S.getDLambda2 D.nq 1 D.W3 D.S.L2.dims.n D.S.L2.dims.n * D.E2ᵀ) + C * V) }
      | _, _, _ => none]
  -- `mrx/derham_sequence.py:486-496`
  | .assembleDd3 => [fun a => match a.strongDiv, a.weakGrad with
      | some d, some g => some { a with dd3 := some (-d * g) }
      | _, _ => none]
  -- `mrx/derham_sequence.py:498-511`
  | .assembleP12 => [
      needTables fun a => some { a with M12 := some (D.E1 * assemble D.S.getLambda1 D.S.getLambda2 D.nq 3
        (fun j => D.w j • (1 : M33)) D.S.L1.dims.n D.S.L2.dims.n * D.E2ᵀ) },
      fun a => match a.M1, a.M12 with
        | some M1, some M12 => some { a with P12 := some (solve M1 M12) }
        | _, _ => none]
  -- `mrx/derham_sequence.py:513-524`
  | .assembleP03 => [needTables fun a => match a.M0 with
      | some M0 => some { a with P03 := some (solve M0 (D.E0 * assemble D.S.getLambda0 D.S.getLambda3 D.nq 1
          (fun j => fun _ _ => D.w j) D.S.L0.dims.n D.S.L3.dims.n * D.E3ᵀ)) }
      | none => none]
  -- `mrx/derham_sequence.py:560-566`
  | .assembleLeray => [fun a => match a.M2, a.weakGrad, a.dd3, a.strongDiv with
      | some _, some g, some d3, some d => some { a with leray := some (1 + g * pinv d3 * d) }
      | _, _, _, _ => none]

/-- Running statements: the state afterwards, and whether `AttributeError` was raised (then the rest is skipped). -/
def runStmts : List (Stmt D) → Attrs D → Attrs D × Bool
  | [], a => (a, false)
  | s :: rest, a =>
    match s a with
    | none => (a, true)
    | some a' => runStmts rest a'

variable (pinv : Matrix (Fin D.m3) (Fin D.m3) ℝ → Matrix (Fin D.m3) (Fin D.m3) ℝ)

/-- One method call. -/
noncomputable def Call.run (c : Call) (a : Attrs D) : Attrs D × Bool := runStmts (c.body pinv) a

/-- A history of calls by a caller who catches exceptions. -/
noncomputable def runHistory (h : List Call) (a : Attrs D) : Attrs D := h.foldl (fun a c => (c.run pinv a).1) a

/-- `assemble_all`; `mrx/derham_sequence.py:542-558`. -/
def assembleAll : List Call :=
  [.assembleM0, .assembleM1, .assembleM2, .assembleM3, .assembleD0, .assembleD1, .assembleD2, .assembleDd0, .assembleDd1, .assembleDd2,
   .assembleDd3, .assembleP12, .assembleP03]

/-- Calling methods one after the other inside another method: an exception stops it. -/
noncomputable def runCalls : List Call → Attrs D → Attrs D × Bool
  | [], a => (a, false)
  | c :: rest, a =>
    match c.run pinv a with
    | (a', true) => (a', true)
    | (a', false) => runCalls rest a'

end

end Mrx
