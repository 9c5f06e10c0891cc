import Verif.Model.Lifecycle

/-!
# What the scripts ask of a `DeRhamSequence`

A script creates a sequence, calls its methods and reads its attributes; so do the functions of the library that are handed a sequence. Python looks a name up in the object and
in its class, and raises `AttributeError` if it is in neither. Names are strings here, as in Python, so a misspelt or removed name is found missing and not assumed missing.

Simplifications: reads that happen while a function is traced by `jax.jit` are listed in the order of the source; an attribute used several times by a function is listed once;
the attributes of `Q`, `Lambda_k` are not looked into. The state is the record of optional attributes of `Model/Lifecycle.lean`, and a flag for the six cross products that
`build_crossproduct_projections` creates together.
-/

namespace Mrx

/-- The attributes of an object, cross products included; `mrx/derham_sequence.py:57-131, 356-567`. -/
structure SeqObj (D : DeRham) where
  attrs : Attrs D := {}
  crossBuilt : Bool := false

/-- The attributes assigned in `__init__`; `mrx/derham_sequence.py:70-112`. -/
def initNames : List String :=
  ["Lambda_0", "Lambda_1", "Lambda_2", "Lambda_3", "Q", "F", "G_jkl", "G_inv_jkl", "J_j", "E0", "E1", "E2", "E3", "P0", "P1", "P2", "P3"]

/-- The cross products; `mrx/derham_sequence.py:531-540`. -/
def crossNames : List String := ["P1x1_to_1", "P2x1_to_1", "P2x2_to_1", "P1x1_to_2", "P2x1_to_2", "P2x2_to_2"]

/-- The methods; `mrx/derham_sequence.py:115-567`. A method found by name and not called is an attribute as well. -/
def methodNames : List String :=
  ["evaluate_1d", "get_Lambda_0_ijk", "get_d_Lambda_0_ijk", "get_Lambda_1_ijk", "get_d_Lambda_1_ijk", "get_Lambda_2_ijk", "get_d_Lambda_2_ijk", "get_Lambda_3_ijk",
   "assemble_M0", "assemble_M1", "assemble_M2", "assemble_M3", "assemble_d0", "assemble_d1", "assemble_d2", "assemble_dd0", "assemble_dd1", "assemble_dd2", "assemble_dd3",
   "assemble_P12", "assemble_P03", "build_crossproduct_projections", "assemble_all", "assemble_leray_projection"]

/-- The attributes set by the assembly methods, by their Python names; `mrx/derham_sequence.py:356-567`. -/
def storedNames {D : DeRham} (a : Attrs D) : List (String × Bool) :=
  [("M0", a.M0.isSome), ("M1", a.M1.isSome), ("M2", a.M2.isSome), ("M3", a.M3.isSome),
   ("D0", a.D0.isSome), ("strong_grad", a.strongGrad.isSome), ("weak_div", a.weakDiv.isSome),
   ("D1", a.D1.isSome), ("strong_curl", a.strongCurl.isSome), ("weak_curl", a.weakCurl.isSome),
   ("D2", a.D2.isSome), ("strong_div", a.strongDiv.isSome), ("weak_grad", a.weakGrad.isSome),
   ("dd0", a.dd0.isSome), ("dd1", a.dd1.isSome), ("dd2", a.dd2.isSome), ("dd3", a.dd3.isSome),
   ("M12", a.M12.isSome), ("P12", a.P12.isSome), ("P03", a.P03.isSome), ("P_Leray", a.leray.isSome),
   ("lambda_r_jk", a.tables), ("lambda_t_jk", a.tables), ("lambda_z_jk", a.tables),
   ("d_lambda_r_jk", a.tables), ("d_lambda_t_jk", a.tables), ("d_lambda_z_jk", a.tables)]

/-- `hasattr(Seq, name)`. -/
def SeqObj.has {D : DeRham} (o : SeqObj D) (name : String) : Bool :=
  initNames.contains name || methodNames.contains name || (o.crossBuilt && crossNames.contains name) ||
    (storedNames o.attrs).any fun e => e.1 == name && e.2

/-- The assembly methods by name (those that store one group of attributes). -/
def callOf : String → Option Call
  | "evaluate_1d" => some .evaluate1d
  | "assemble_M0" => some .assembleM0
  | "assemble_M1" => some .assembleM1
  | "assemble_M2" => some .assembleM2
  | "assemble_M3" => some .assembleM3
  | "assemble_d0" => some .assembleD0
  | "assemble_d1" => some .assembleD1
  | "assemble_d2" => some .assembleD2
  | "assemble_dd0" => some .assembleDd0
  | "assemble_dd1" => some .assembleDd1
  | "assemble_dd2" => some .assembleDd2
  | "assemble_dd3" => some .assembleDd3
  | "assemble_P12" => some .assembleP12
  | "assemble_P03" => some .assembleP03
  | "assemble_leray_projection" => some .assembleLeray
  | _ => none

/-- What a program does with the sequence. -/
inductive Ev where
  /-- `Seq.name` -/
  | get (name : String)
  /-- `Seq.name()`, an assembly method -/
  | call (name : String)
  /-- `Seq.Pk(f)`, a projector; it calls a getter, which reads the tables; `mrx/projectors.py:49-140`. -/
  | project (name : String)
  /-- `Seq.PmxK_to_n(u, v)`, a cross product; `mrx/nonlinearities.py:62-135`. -/
  | cross (name : String)
  deriving DecidableEq

section
variable {D : DeRham} (pinv : Matrix (Fin D.m3) (Fin D.m3) ℝ → Matrix (Fin D.m3) (Fin D.m3) ℝ)

/-- One event: the object afterwards, and whether `AttributeError` was raised. -/
noncomputable def Ev.run (o : SeqObj D) : Ev → SeqObj D × Bool
  | .get n => (o, !o.has n)
  | .call "assemble_all" => let r := runCalls pinv assembleAll o.attrs; ({ o with attrs := r.1 }, r.2)
  | .call "build_crossproduct_projections" => ({ o with crossBuilt := true }, false)
  | .call n =>
    match callOf n with
    | some c => let r := c.run pinv o.attrs; ({ o with attrs := r.1 }, r.2)
    | none => (o, true)
  | .project n => (o, !(o.has n && o.attrs.tables))
  | .cross n => (o, !(o.has n && o.attrs.tables))

/-- A program: it stops at the first `AttributeError`; the result is the object and the event that raised. -/
noncomputable def runEvents : List Ev → SeqObj D → SeqObj D × Option Ev
  | [], o => (o, none)
  | e :: rest, o =>
    match e.run pinv o with
    | (o', true) => (o', some e)
    | (o', false) => runEvents rest o'

end

/-! ## Functions of the library that use a sequence -/

/-- `norm_2(u, Seq)`; `mrx/utils.py:17-27`, and `TimeStepper.norm_2`, `mrx/relaxation.py:295-309`. -/
def evNorm2 : List Ev := [.get "M2"]
/-- `MRXDiagnostics.energy`; `mrx/relaxation.py:105-119`. -/
def evEnergy : List Ev := [.get "M2"]
/-- `MRXDiagnostics.helicity`; `mrx/relaxation.py:121-137`. -/
def evHelicity : List Ev := [.get "dd1", .get "weak_curl", .get "strong_curl", .get "M1", .get "P12"]
/-- `MRXDiagnostics.harmonic_component`; `mrx/relaxation.py:139-155`. -/
def evHarmonic : List Ev := [.get "dd1", .get "weak_curl", .get "strong_curl"]
/-- `MRXDiagnostics.divergence_norm`; `mrx/relaxation.py:157-172`. -/
def evDivergence : List Ev := [.get "strong_div", .get "M3"]
/-- `MRXDiagnostics.pressure`; `mrx/relaxation.py:174-204`. -/
def evPressure (forceFree : Bool) : List Ev :=
  if forceFree then [.get "Lambda_2", .get "E2", .get "weak_curl", .get "Lambda_1", .get "E1", .get "F", .get "M0", .project "P0"]
  else [.get "weak_curl", .get "P12", .get "M2", .cross "P1x1_to_2", .get "dd0", .get "P03", .get "strong_div"]
/-- `MRXHessian.assemble`; `mrx/relaxation.py:23-84`. -/
def evHessian : List Ev := [.get "P12", .get "M1", .cross "P2x1_to_1", .get "strong_curl", .get "weak_curl", .get "M2", .get "M12"]
/-- `TimeStepper.__init__`; `mrx/relaxation.py:244-271`. -/
def evStepper : List Ev := [.get "M2"]
/-- `TimeStepper.midpoint_residuum`; `mrx/relaxation.py:311-366`. -/
def evMidpoint (forceFree newton : Bool) (gamma : Nat) : List Ev :=
  [.get "weak_curl", .get "P12", .get "M2", .cross "P1x1_to_2"] ++ (if forceFree then [] else [.get "P_Leray"]) ++
    (if gamma = 0 then [] else [.get "dd2"]) ++ (if newton then [.get "P_Leray", .get "M2"] else []) ++
    [.get "M1", .cross "P2x1_to_1", .get "strong_curl"] ++ evNorm2
/-- The perturbation inside the loop; `mrx/utils.py:513-519`. -/
def evPerturb : List Ev := [.get "M2", .project "P2", .get "P_Leray"] ++ evNorm2

/-- The settings on which the attributes used by a relaxation run depend. -/
structure RunKind where
  forceFree : Bool
  precond : Bool
  gamma : Nat
  perturbed : Bool
  saveB : Bool

/-- `run_relaxation_loop`: the constructors, the dry run with the diagnostics, then, for every number of iterations, steps with or without a perturbation, a new Hessian and a record;
`mrx/utils.py:448-553`. `its` lists for each iteration whether the perturbation, the Hessian and the record are due. -/
def evLoop (k : RunKind) (its : List (Bool × Bool × Bool)) : List Ev :=
  evStepper ++ evMidpoint k.forceFree k.precond k.gamma ++ evEnergy ++ evHelicity ++ evDivergence ++
    its.flatMap fun i => evMidpoint k.forceFree k.precond k.gamma ++ (if i.1 && k.perturbed then evPerturb else []) ++ (if i.2.1 && k.precond then evHessian else []) ++
      (if i.2.2 then evEnergy ++ evHelicity ++ evDivergence else [])

/-- `save_trace_dict_to_hdf5`; `mrx/utils.py:379-446`. -/
def evSave : List Ev := evHarmonic ++ evNorm2

/-! ## The scripts -/

/-- Setup of the relaxation scripts; `scripts/config_scripts/solovev.py:76-83`, `iter_islands.py:62-69`, `stell.py:61-68`. -/
def evSetup : List Ev :=
  [.get "J_j", .call "evaluate_1d", .call "assemble_all", .call "build_crossproduct_projections", .call "assemble_leray_projection"]

/-- Post-processing of `n` saved fields; `scripts/config_scripts/solovev.py:104-113`, `iter_islands.py:127-138`, `stell.py:123-134`. -/
def evPost (k : RunKind) (n : Nat) : List Ev :=
  (if k.saveB then (List.replicate n (evPressure k.forceFree)).flatten else []) ++ evPressure k.forceFree ++ evSave

/-- `scripts/config_scripts/solovev.py:74-116`. -/
def evSolovev (k : RunKind) (its : List (Bool × Bool × Bool)) (n : Nat) : List Ev :=
  evSetup ++ [.get "M2", .get "dd2"] ++ evNorm2 ++ [.get "M2"] ++ evLoop k its ++ evPost k n

/-- `scripts/config_scripts/iter_islands.py:60-138` and `stell.py:59-134`; `atStart`: the perturbation is applied to the initial field. -/
def evIslands (k : RunKind) (atStart : Bool) (its : List (Bool × Bool × Bool)) (n : Nat) : List Ev :=
  evSetup ++ [.get "M2", .project "P2", .get "P_Leray"] ++ evNorm2 ++ (if atStart then evPerturb else []) ++ [.get "M2"] ++ evLoop k its ++ evPost k n

/-- `get_err` of `scripts/tutorials/polar_poisson.py:88-105`, `toroid_poisson.py:85-102` and `scripts/interactive/toroid_poisson.py:72-105`. -/
def evPoisson : List Ev :=
  [.call "evaluate_1d", .call "assemble_M0", .call "assemble_dd0", .get "M0", .get "dd0", .project "P0", .get "Lambda_0", .get "E0", .get "Q", .get "J_j"]
/-- `get_err` of `scripts/tutorials/mixed_polar_poisson.py:93-113`. -/
def evMixedPoisson : List Ev :=
  [.call "evaluate_1d", .call "assemble_M2", .call "assemble_M3", .call "assemble_d2", .call "assemble_dd3", .get "M3", .get "dd3", .project "P3", .get "Lambda_3", .get "E3",
   .get "Q", .get "J_j"]
/-- `get_err` of `scripts/interactive/cylinder_vector_poisson.py:78-123`. -/
def evVectorPoisson : List Ev :=
  [.call "evaluate_1d", .call "assemble_M0", .call "assemble_M1", .call "assemble_M2", .call "assemble_d1", .get "strong_curl", .call "assemble_dd2", .get "M2", .get "dd2",
   .get "strong_curl", .get "weak_curl", .call "assemble_M1", .get "M1", .call "assemble_M2", .get "M2", .project "P2", .project "P2"]
/-- `scripts/interactive/toroid_cavity.py:41-55, 182-190`. -/
def evToroidCavity : List Ev :=
  [.call "evaluate_1d", .get "E0", .get "E1", .get "E2", .get "E3", .call "assemble_M0", .call "assemble_M1", .call "assemble_M2", .call "assemble_M3", .call "assemble_d0",
   .get "M0", .get "M1", .get "M2", .get "M3", .get "strong_grad", .call "assemble_dd1", .get "M1", .get "dd1", .get "strong_grad", .get "weak_div", .get "Lambda_1"]
/-- `scripts/interactive/cylinder_cavity.py:46-63, 376`. -/
def evCylinderCavity : List Ev :=
  [.get "E0", .get "E1", .get "E2", .get "E3", .call "evaluate_1d", .call "assemble_M1", .call "assemble_M0", .call "assemble_d0", .get "M1", .get "M0", .get "D0",
   .call "assemble_dd1", .get "M1", .get "dd1", .get "strong_grad", .get "weak_div", .get "Lambda_1"]
/-- `get_evs` of `scripts/interactive/drumshape.py:113-129`: the getters read the tables. -/
def evDrum : List Ev :=
  [.call "evaluate_1d", .get "Q", .get "get_d_Lambda_0_ijk", .get "d_lambda_r_jk", .get "get_Lambda_0_ijk", .get "lambda_r_jk", .get "Lambda_0", .get "E0"]
/-- `scripts/interactive/test_gvec_stellarator.py:62-145` (and the sequences of `get_err`, `:162-185`, and of `test_gvec_tokamak.py:75-103`). -/
def evGvec : List Ev :=
  [.call "evaluate_1d", .call "assemble_all", .get "Lambda_2", .get "E2", .get "F", .get "strong_div", .get "M3", .get "M2", .get "M0", .get "dd0", .get "M1", .get "dd1", .get "dd2",
   .get "dd3", .get "strong_curl", .get "strong_grad"]
/-- `get_err` there. -/
def evGvecErr : List Ev := [.call "evaluate_1d", .call "assemble_M0", .get "M0", .project "P0", .get "Lambda_0", .get "E0", .get "Q", .get "J_j"]
/-- `scripts/plotting/{iter,stell,helix}_plots.py`, `solovev_poincare.py` (`iter_plots.py:62-64, 215-216`) and `generate_solovev_plots`, `mrx/plotting.py:1336-1355`. -/
def evPlots : List Ev := [.get "J_j", .get "Lambda_0", .get "E0", .get "Lambda_2", .get "E2"]
/-- `scripts/plotting/solovev_single_plot.py:61-63, 177, 194-195`. -/
def evSinglePlot : List Ev := [.get "J_j", .get "Lambda_0", .get "E0", .call "evaluate_1d", .project "P0", .get "J_j", .get "Q"]

/-- `scripts/config_scripts/hopf.py:102-185`, up to the initial condition. -/
def evHopf : List Ev :=
  [.call "evaluate_1d", .call "assemble_M0", .call "assemble_M1", .call "assemble_M2", .call "assemble_M3", .get "M0", .get "M1", .get "M2", .get "M3",
   .call "assemble_d0", .call "assemble_d1", .call "assemble_d2", .call "assemble_dd0", .call "assemble_dd1", .call "assemble_dd2", .call "assemble_dd3",
   .call "assemble_grad_0", .call "assemble_curl_0", .call "assemble_dvg_0", .get "dd0", .get "dd1", .get "dd2", .get "M12", .get "M03",
   .get "E2_0", .get "E1_0", .get "Λ2_ijk", .get "Λ1_ijk", .get "J_j", .get "G_jkl", .get "G_inv_jkl", .project "P2_0"]

end Mrx
