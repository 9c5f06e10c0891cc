import Verif.Model.Relaxation
import Mathlib.Data.Rat.Floor
import Mathlib.Data.Real.Archimedean

/-!
# Model of `mrx/io.py` and of the configuration handling in `mrx/utils.py`

Python strings are lists of characters. What depends on the Unicode tables and on Python's float grammar is collected in `PyChars`, so
that the theorems hold for every such table. `argparse` itself, which passes the positional arguments on as a list of strings, is not
modelled.
-/

namespace Mrx.IO

/-- Python strings. -/
abbrev PyStr := List Char

/-! ## Dictionaries -/

/-- A Python `dict`: keys in insertion order. -/
abbrev PyDict (V : Type) := List (PyStr × V)

section
variable {V : Type}

/-- `d.get(k)` (`none` for `None`). -/
def PyDict.get? (d : PyDict V) (k : PyStr) : Option V := d.lookup k

/-- `k in d`. -/
def PyDict.mem (d : PyDict V) (k : PyStr) : Bool := (d.get? k).isSome

/-- `d[k] = v`: an existing key keeps its position. -/
def PyDict.set (d : PyDict V) (k : PyStr) (v : V) : PyDict V :=
  if d.mem k then d.map fun e => if e.1 = k then (k, v) else e else d ++ [(k, v)]

/-- `for k, v in new.items(): d[k] = v`. -/
def PyDict.update (d new : PyDict V) : PyDict V := new.foldl (fun d e => d.set e.1 e.2) d

end

/-! ## `parse_args` -/

/-- Values of command line arguments; floats are left abstract. -/
inductive ArgVal (Fl : Type) where
  | int (n : Int)
  | bool (b : Bool)
  | float (x : Fl)
  | str (s : PyStr)
  deriving DecidableEq

/-- What Python knows about characters and floats. -/
structure PyChars (Fl : Type) where
  /-- characters with Unicode property Numeric_Type Digit or Decimal (`str.isdigit`) -/
  isDigit : Char → Bool
  /-- the value of characters of category Nd (accepted by `int`) -/
  decimal : Char → Option Nat
  /-- `str.lower` -/
  lower : PyStr → PyStr
  /-- `str.upper` -/
  upper : PyStr → PyStr
  /-- `float(s)`, `none` for `ValueError` -/
  float : PyStr → Option Fl
  /-- `sys.get_int_max_str_digits()`: `int` raises `ValueError` for longer strings (`none`: no limit) -/
  maxDigits : Option Nat

section
variable {Fl : Type} (P : PyChars Fl)

/-- `value.isdigit()`. -/
def isdigit (s : PyStr) : Bool := !s.isEmpty && s.all P.isDigit

/-- Appending one digit. -/
def digitStep (acc : Option Nat) (c : Char) : Option Nat :=
  match acc, P.decimal c with
  | some a, some d => some (10 * a + d)
  | _, _ => none

/-- `int(s)` for a string without sign, whitespace and underscore (it is only called when `s.isdigit()`); `none` for `ValueError`. -/
def pyInt (s : PyStr) : Option Nat :=
  if (match P.maxDigits with | none => false | some m => decide (m < s.length)) then none
  else s.foldl (digitStep P) (some 0)

/-- `key, value = kv.split('=', 1)` for a string with `=`; `mrx/io.py:34`. -/
def splitEq : PyStr → PyStr × PyStr
  | [] => ([], [])
  | c :: s => if c = '=' then ([], s) else ((c :: (splitEq s).1), (splitEq s).2)

/-- The conversion of one value; `mrx/io.py:36-44`. `int` is called outside of the `try`. -/
def convert (value : PyStr) : Except String (ArgVal Fl) :=
  if isdigit P value then
    match pyInt P value with
    | some n => .ok (.int n)
    | none => .error "ValueError"
  else if P.lower value = "true".toList ∨ P.lower value = "false".toList then .ok (.bool (decide (P.lower value = "true".toList)))
  else
    match P.float value with
    | some x => .ok (.float x)
    | none => .ok (.str value)

/-- One iteration of the loop; `mrx/io.py:28-45`. -/
def parseStep (kwargs : PyDict (ArgVal Fl)) (kv : PyStr) : Except String (PyDict (ArgVal Fl)) :=
  if '=' ∉ kv then .ok kwargs
  else
    match convert P (splitEq kv).2 with
    | .error e => .error e
    | .ok v => .ok (kwargs.set (splitEq kv).1 v)

/-- `parse_args` after `argparse`: `kvs` is `args.kv`; `mrx/io.py:9-46`. -/
def parseArgs (kvs : List PyStr) : Except String (PyDict (ArgVal Fl)) :=
  kvs.foldl (fun acc kv => match acc with
    | .error e => .error e
    | .ok d => parseStep P d kv) (.ok [])

end

/-! ### ASCII -/

/-- The ASCII digit with value `d`. -/
def asciiDigit (d : Fin 10) : Char := Char.ofNat (48 + d)

/-- Python's treatment of ASCII characters that the typing statements rely on. -/
structure PyChars.Ascii {Fl : Type} (P : PyChars Fl) : Prop where
  digit : ∀ d, P.isDigit (asciiDigit d) = true ∧ P.decimal (asciiDigit d) = some d.val
  minus : P.isDigit '-' = false
  letters : ∀ c, c ∈ "tTfF".toList → P.isDigit c = false
  lowerDigits : ∀ ds : List (Fin 10), P.lower ('-' :: ds.map asciiDigit) = '-' :: ds.map asciiDigit
  lowerTrue : ∀ s ∈ ["true", "True", "TRUE"], P.lower s.toList = "true".toList
  lowerFalse : ∀ s ∈ ["false", "False", "FALSE"], P.lower s.toList = "false".toList

/-! ## `unique_id`, `epoch_time` -/

/-- `string.ascii_letters + string.digits`; `mrx/io.py:58`. -/
def idChars : List Char := "abcdefghijklmnopqrstuvwxyzABCDEFGHIJKLMNOPQRSTUVWXYZ0123456789".toList

/-- `random.choice(chars)` called the `i`-th time returns the character at index `rnd i`; `mrx/io.py:49-60`. `n` is the argument
(`range(n)` is empty for negative `n`). -/
def uniqueId (rnd : Nat → Fin idChars.length) (n : Int) : PyStr := (List.range n.toNat).map fun i => idChars[rnd i]

/-- `int(x)` of a real number: truncation towards zero. -/
noncomputable def truncZero (x : ℝ) : Int := if 0 ≤ x then ⌊x⌋ else ⌈x⌉

/-- `epoch_time(decimals)` at time `t`, for `decimals >= 0` and exact arithmetic; `mrx/io.py:63-76`. -/
noncomputable def epochTime (t : ℝ) (decimals : Nat) : Int := truncZero (t * 10 ^ decimals)

/-! ## `update_config` -/

section
variable {Fl : Type} (P : PyChars Fl)

/-- Truth value of `params.get("device")`; floats: `zero x` says whether `x == 0.0`. -/
def ArgVal.truthy (zero : Fl → Bool) : ArgVal Fl → Bool
  | .int n => n != 0
  | .bool b => b
  | .float x => !zero x
  | .str s => !s.isEmpty

/-- `for k, v in params.items(): if k in CONFIG: CONFIG[k] = v` (messages omitted); `mrx/utils.py:577-582`. -/
def overrideWith (params : PyDict (ArgVal Fl)) (config : PyDict (ArgVal Fl)) : PyDict (ArgVal Fl) :=
  params.foldl (fun c e => if c.mem e.1 then c.set e.1 e.2 else c) config

/-- The contents of the dictionary object `CONFIG` after `update_config(params, CONFIG)`, which modifies and returns its argument;
`presets` is `DEVICE_PRESETS`; `mrx/utils.py:555-587`. -/
def updateConfig (zero : Fl → Bool) (presets : PyDict (PyDict (ArgVal Fl))) (params config : PyDict (ArgVal Fl)) :
    Except String (PyDict (ArgVal Fl)) :=
  match params.get? "device".toList with
  | none => .ok (overrideWith params config)
  | some dev =>
    if dev.truthy zero then
      match dev with
      | .str s =>
        match presets.get? (P.upper s) with
        | none => .ok (overrideWith params config)
        | some preset => if preset.isEmpty then .ok (overrideWith params config) else .ok (overrideWith params (config.update preset))
      | _ => .error "AttributeError"
    else .ok (overrideWith params config)

/-- Decimal literals of the configuration; `lit n e` is the float literal `n * 10^-e`. -/
structure Literals (Fl : Type) where
  lit : Nat → Nat → Fl

variable (L : Literals Fl)

/-- `DEVICE_PRESETS`; `mrx/utils.py:260-266`. -/
def devicePresets : PyDict (PyDict (ArgVal Fl)) :=
  [("ITER".toList, [("eps".toList, .float (L.lit 32 2)), ("kappa".toList, .float (L.lit 17 1)), ("delta".toList, .float (L.lit 33 2)),
      ("q_star".toList, .float (L.lit 157 2)), ("type".toList, .str "tokamak".toList), ("n_zeta".toList, .int 1), ("p_zeta".toList, .int 0)]),
   ("NSTX".toList, [("eps".toList, .float (L.lit 78 2)), ("kappa".toList, .float (L.lit 20 1)), ("delta".toList, .float (L.lit 35 2)),
      ("q_star".toList, .float (L.lit 20 1)), ("type".toList, .str "tokamak".toList), ("n_zeta".toList, .int 1), ("p_zeta".toList, .int 0)]),
   ("SPHERO".toList, [("eps".toList, .float (L.lit 95 2)), ("kappa".toList, .float (L.lit 10 1)), ("delta".toList, .float (L.lit 2 1)),
      ("q_star".toList, .float (L.lit 0 1)), ("type".toList, .str "tokamak".toList), ("n_zeta".toList, .int 1), ("p_zeta".toList, .int 0)]),
   ("ROT_ELL".toList, [("a".toList, .float (L.lit 1 1)), ("b".toList, .float (L.lit 25 3)), ("m_rot".toList, .int 5),
      ("q_star".toList, .float (L.lit 16 1)), ("type".toList, .str "rotating_ellipse".toList)]),
   ("HELIX".toList, [("eps".toList, .float (L.lit 33 2)), ("h_helix".toList, .float (L.lit 20 2)), ("kappa".toList, .float (L.lit 17 1)),
      ("delta".toList, .float (L.lit 33 2)), ("m_helix".toList, .int 3), ("q_star".toList, .float (L.lit 20 1)),
      ("type".toList, .str "helix".toList)])]

/-- `DEFAULT_CONFIG`; `mrx/utils.py:269-319`. -/
def defaultConfig : PyDict (ArgVal Fl) :=
  [("run_name".toList, .str []), ("boundary_type".toList, .str "rotating_ellipse".toList), ("eps".toList, .float (L.lit 2 1)),
   ("kappa".toList, .float (L.lit 17 1)), ("q_star".toList, .float (L.lit 157 2)), ("delta".toList, .float (L.lit 0 1)),
   ("nfp".toList, .int 3), ("h_helix".toList, .int 0), ("R_0".toList, .float (L.lit 10 1)), ("n_r".toList, .int 8),
   ("n_theta".toList, .int 8), ("n_zeta".toList, .int 6), ("p_r".toList, .int 3), ("p_theta".toList, .int 3), ("p_zeta".toList, .int 3),
   ("maxit".toList, .int 5000), ("precond".toList, .bool false), ("precond_compute_every".toList, .int 1000), ("gamma".toList, .int 0),
   ("dt".toList, .float (L.lit 1 6)), ("dt_factor".toList, .float (L.lit 101 2)), ("force_tol".toList, .float (L.lit 1 15)),
   ("eta".toList, .float (L.lit 0 1)), ("force_free".toList, .bool false), ("solver_maxit".toList, .int 20),
   ("solver_critit".toList, .int 4), ("solver_tol".toList, .float (L.lit 1 12)), ("verbose".toList, .bool false),
   ("print_every".toList, .int 1000), ("save_every".toList, .int 100), ("save_B".toList, .bool false), ("save_B_every".toList, .int 500),
   ("pert_strength".toList, .float (L.lit 0 1)), ("pert_pol_mode".toList, .int 2), ("pert_tor_mode".toList, .int 1),
   ("pert_radial_loc".toList, .float (L.lit 5 1)), ("pert_radial_width".toList, .float (L.lit 7 2)), ("apply_pert_after".toList, .int 2000)]

end

/-! ## `load_sweep` -/

/-- An HDF5 attribute as read by h5py after `decode`: integers (also booleans), floats, strings; everything with more entries is an
array. -/
inductive Attr where
  | int (n : Int)
  | num (x : FV)
  | str (s : PyStr)
  | arr (xs : List FV)

/-- The number an integer or float attribute stands for. -/
def Attr.toFV? : Attr → Option FV
  | .int n => some (.fin n)
  | .num x => some x
  | _ => none

open Classical in
/-- `ref_cfg.get(k) != v` used as a condition; `none` for an exception (the truth value of an array of several elements). Comparing a
scalar or `None` with an array is elementwise, too; a string is never equal to a number. -/
noncomputable def Attr.ne (r : Option Attr) (v : Attr) : Option Bool :=
  match r, v with
  | some (.arr _), _ => none
  | _, .arr _ => none
  | none, _ => some true
  | some (.str s), .str t => some (!decide (s = t))
  | some (.str _), _ => some true
  | some _, .str _ => some true
  | some a, b => some (!decide (∃ x y, a.toFV? = some x ∧ b.toFV? = some y ∧ FV.eq x y))

/-- An HDF5 file: datasets (here: traces of numbers) and the attributes of the group `config` (`none` if there is no such group). -/
structure H5File where
  data : PyDict (List FV)
  config : Option (PyDict Attr)

/-- `np.arange(0, stop, step)` for integers: `ceil(stop / step)` entries (none if that is negative); a step 0 raises
`ZeroDivisionError`. -/
def arange0 (stop step : Int) : Option (List Int) :=
  if step = 0 then none else some ((List.range (-((-stop).fdiv step)).toNat).map fun (i : Nat) => (i : Int) * step)

/-- The body of the `try` block: `(force_trace, cfg, iter_count)`; `none` if anything raises; `maxit` and `save_every` are integers
(other values are not modelled: treated as raising); `mrx/io.py:125-134`. -/
def readRun (QOI : PyStr) (f : Option H5File) : Option (List FV × PyDict Attr × List Int) :=
  match f with
  | none => none
  | some f =>
    match f.data.get? QOI, f.config with
    | some tr, some cfg =>
      match cfg.get? "maxit".toList, cfg.get? "save_every".toList with
      | some (.int m), some (.int s) => (arange0 m s).map fun it => (tr, cfg, it)
      | _, _ => none
    | _, _ => none

/-- Keys of `unexpected_diffs`; `none` if a comparison raises; `mrx/io.py:140-144`. -/
noncomputable def unexpectedDiffs (ref : PyDict Attr) (allowed : List PyStr) : PyDict Attr → Option (List PyStr)
  | [] => some []
  | (k, v) :: rest =>
    match Attr.ne (ref.get? k) v, unexpectedDiffs ref allowed rest with
    | some b, some ds => some (if b && !(decide (k ∈ allowed)) then k :: ds else ds)
    | _, _ => none

/-- `fname.endswith(".h5")`. -/
def endsWithH5 (name : PyStr) : Bool := ".h5".toList.isSuffixOf name

/-- One entry of the results. -/
structure Run where
  cfg : PyDict Attr
  force : List FV
  iters : List Int

/-- `load_sweep`: `ref` is the configuration of the reference file, `dir` lists the directory entries in the order of `os.listdir`, with
`none` for files h5py cannot open; `mrx/io.py:78-153`. -/
noncomputable def loadSweep (ref : PyDict Attr) (QOI : PyStr) (sweep : List PyStr) : List (PyStr × Option H5File) → Except String (List Run)
  | [] => .ok []
  | (name, f) :: rest =>
    if endsWithH5 name = false then loadSweep ref QOI sweep rest
    else
      match readRun QOI f with
      | none => loadSweep ref QOI sweep rest
      | some (tr, cfg, it) =>
        match unexpectedDiffs ref ("run_name".toList :: sweep) cfg with
        | none => .error "ValueError"
        | some ds =>
          match loadSweep ref QOI sweep rest with
          | .error e => .error e
          | .ok rs => .ok (if ds.isEmpty then ⟨cfg, tr, it⟩ :: rs else rs)

/-! ## `save_trace_dict_to_hdf5` -/

/-- The trace datasets written by `save_trace_dict_to_hdf5` (`p_fields`, the final fields and the timings are omitted, and `B_fields`
contains arrays); `mrx/utils.py:398-423`. -/
def traceDatasets {V : Type} (t : Trace V) : PyDict (List FV) :=
  [("iterations".toList, t.iterations.map fun (n : Nat) => .fin n), ("force_trace".toList, t.force), ("energy_trace".toList, t.energy),
   ("helicity_trace".toList, t.helicity), ("divergence_trace".toList, t.divergence), ("velocity_trace".toList, t.velocity),
   ("picard_iterations".toList, t.picardIterations.map fun (n : Int) => .fin n), ("picard_errors".toList, t.picardErrors),
   ("timesteps".toList, t.timesteps.map .fin), ("wall_time_trace".toList, t.wallTime.map .fin)]

/-- The name of the file it writes; `mrx/utils.py:397`. -/
def traceFile (filename : PyStr) : PyStr := filename ++ ".h5".toList

end Mrx.IO
