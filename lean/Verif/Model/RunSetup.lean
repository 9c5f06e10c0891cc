import Verif.Model.IO
import Verif.Model.SavedPlots

/-!
# From the command line to the discretisation: the first half of `run` in the relaxation scripts

`scripts/config_scripts/solovev.py:18-77`, `iter_islands.py:19-64`, `stell.py:18-62`: the parameters become a configuration, the configuration a map, sizes and a `DeRhamSequence`,
and the sequence is checked. Numbers are real. The names of exceptions are those of Python, but a configuration with several mistakes may raise another one of them here.
-/

set_option linter.unusedVariables false

namespace Mrx
open Real IO

/-- The decimal literals of the sources, as real numbers. -/
noncomputable def realLits : Literals ℝ := ⟨fun n e => (n : ℝ) / 10 ^ e⟩

/-- A configuration value used as a number: `True` is 1 and `False` is 0; a string raises when it is computed with. -/
noncomputable def IO.ArgVal.num : ArgVal ℝ → Except String ℝ
  | .int n => .ok n
  | .bool b => .ok (if b then 1 else 0)
  | .float x => .ok x
  | .str _ => .error "TypeError"

/-- A configuration value used as a number of splines, a degree or a number of field periods. Simplification: a float with an integer value is refused, Python refuses it
later (sizes) or computes with it (`nfp`). -/
def IO.ArgVal.integer : ArgVal ℝ → Except String Int
  | .int n => .ok n
  | .bool b => .ok (if b then 1 else 0)
  | _ => .error "TypeError"

/-- `CONFIG[k]` used as a number. -/
noncomputable def configNum (c : PyDict (ArgVal ℝ)) (k : String) : Except String ℝ :=
  match c.get? k.toList with
  | none => .error "KeyError"
  | some v => v.num

/-- `CONFIG[k]` used as an integer. -/
def configInt (c : PyDict (ArgVal ℝ)) (k : String) : Except String Int :=
  match c.get? k.toList with
  | none => .error "KeyError"
  | some v => v.integer

/-- `CONFIG[k]` used as a size: negative numbers are refused by the constructors of the spline bases. -/
def configNat (c : PyDict (ArgVal ℝ)) (k : String) : Except String Nat :=
  match configInt c k with
  | .error e => .error e
  | .ok n => if 0 ≤ n then .ok n.toNat else .error "ValueError"

/-- `cerfon_map(CONFIG["eps"], CONFIG["kappa"], jnp.arcsin(CONFIG["delta"]))`; `scripts/config_scripts/solovev.py:58`, `iter_islands.py:46-52`. For `|delta| > 1` the arcsine is
NaN, the map and all determinants are NaN, and the assertion on them fails. -/
noncomputable def tokamakOf (c : PyDict (ArgVal ℝ)) : Except String (V3 → V3) :=
  match configNum c "eps", configNum c "kappa", configNum c "delta" with
  | .ok e, .ok k, .ok d => if |d| ≤ 1 then .ok (cerfonMap e k (arcsin d) 1.0) else .error "AssertionError: Mapping is singular!"
  | _, _, _ => .error "TypeError"

/-- `helical_map(epsilon=..., h=..., nfp=..., kappa=..., alpha=...)`; `scripts/config_scripts/solovev.py:60-61`. -/
noncomputable def helixOf (c : PyDict (ArgVal ℝ)) : Except String (V3 → V3) :=
  match configNum c "eps", configNum c "h_helix", configNum c "nfp", configNum c "kappa", configNum c "delta" with
  | .ok e, .ok h, .ok n, .ok k, .ok d => if |d| ≤ 1 then .ok (helicalMap e h k (arcsin d) n) else .error "AssertionError: Mapping is singular!"
  | _, _, _, _, _ => .error "TypeError"

/-- `rotating_ellipse_map(CONFIG["eps"], CONFIG["kappa"], CONFIG[key])` with `key` the entry for the number of field periods; `scripts/config_scripts/solovev.py:63-64` (`nfp`),
`stell.py:50` (`n_fp`). -/
noncomputable def ellipseOf (c : PyDict (ArgVal ℝ)) (key : String) : Except String (V3 → V3) :=
  match configNum c "eps", configNum c "kappa", configInt c key with
  | .ok e, .ok k, .ok n => rotatingEllipseMap e k n
  | _, _, _ => .error "TypeError"

/-- The map of `solovev.py`; `scripts/config_scripts/solovev.py:57-66`. -/
noncomputable def solovevMapOf (c : PyDict (ArgVal ℝ)) : Except String (V3 → V3) :=
  match c.get? "boundary_type".toList with
  | none => .error "KeyError"
  | some t =>
    if t = .str "tokamak".toList then tokamakOf c
    else if t = .str "helix".toList then helixOf c
    else if t = .str "rotating_ellipse".toList then ellipseOf c "nfp"
    else .error "ValueError: Unknown boundary type."

/-- The third degree: `0 if CONFIG["n_zeta"] == 1 else CONFIG["p_zeta"]`; `scripts/config_scripts/solovev.py:69-70`. -/
def zetaDegree (c : PyDict (ArgVal ℝ)) (nz : Nat) : Except String Nat := if nz = 1 then .ok 0 else configNat c "p_zeta"

/-- `ns`, `ps`; `scripts/config_scripts/solovev.py:68-70`, `iter_islands.py:54-56`, `stell.py:52-54`. -/
def sizesOf (c : PyDict (ArgVal ℝ)) : Except String ((Nat × Nat × Nat) × (Nat × Nat × Nat)) :=
  match configNat c "n_r", configNat c "n_theta", configNat c "n_zeta", configNat c "p_r", configNat c "p_theta" with
  | .ok nr, .ok nt, .ok nz, .ok pr, .ok pt =>
    match zetaDegree c nz with
    | .ok pz => .ok ((nr, nt, nz), (pr, pt, pz))
    | .error e => .error e
  | _, _, _, _, _ => .error "TypeError"

/-- `types`; `scripts/config_scripts/solovev.py:72-73`. -/
def typesOf (nz : Nat) : String × String × String := ("clamped", "periodic", if nz = 1 then "constant" else "periodic")

/-- `q = max(ps)`; `scripts/config_scripts/solovev.py:71`. -/
def pointsOf (ps : Nat × Nat × Nat) : Nat := max ps.1 (max ps.2.1 ps.2.2)

open Classical in
/-- `Seq = DeRhamSequence(ns, ps, q, types, F, polar=True, dirichlet=True)` and `assert jnp.min(Seq.J_j) > 0`; `scripts/config_scripts/solovev.py:68-77`, `iter_islands.py:54-65`,
`stell.py:52-62`. -/
noncomputable def buildRun (c : PyDict (ArgVal ℝ)) (F : V3 → V3) : Except String DeRham :=
  match sizesOf c with
  | .error e => .error e
  | .ok (ns, ps) =>
    match DeRham.mk? ns ps (pointsOf ps) (typesOf ns.2.2) F true true with
    | .error e => .error e
    | .ok D => if ∀ j < D.S.Q.x.length, 0 < D.g.J j then .ok D else .error "AssertionError: Mapping is singular!"

/-- The sequence of a configuration; `scripts/config_scripts/solovev.py:57-77`. -/
noncomputable def solovevBuild (c : PyDict (ArgVal ℝ)) : Except String DeRham :=
  match solovevMapOf c with
  | .error e => .error e
  | .ok F => buildRun c F

/-- `scripts/config_scripts/iter_islands.py:46-65`. -/
noncomputable def iterBuild (c : PyDict (ArgVal ℝ)) : Except String DeRham :=
  match tokamakOf c with
  | .error e => .error e
  | .ok F => buildRun c F

/-- `scripts/config_scripts/stell.py:50-62`. -/
noncomputable def stellBuild (c : PyDict (ArgVal ℝ)) : Except String DeRham :=
  match ellipseOf c "n_fp" with
  | .error e => .error e
  | .ok F => buildRun c F

/-- The configuration of `iter_islands.py` before the command line; `scripts/config_scripts/iter_islands.py:21-31`. -/
noncomputable def iterConfig : PyDict (ArgVal ℝ) :=
  (defaultConfig realLits).update
    [("boundary_type".toList, .str "tokamak".toList), ("eps".toList, .float (realLits.lit 33 2)), ("kappa".toList, .float (realLits.lit 17 1)),
     ("delta".toList, .float (realLits.lit 33 2)), ("delta_B".toList, .float (realLits.lit 2 1)), ("q_star".toList, .float (realLits.lit 154 2)),
     ("dt".toList, .float (realLits.lit 1 4)), ("pert_strength".toList, .float (realLits.lit 2 5)), ("save_every".toList, .int 10)]

/-- The configuration of `stell.py` before the command line; `scripts/config_scripts/stell.py:20-31`. -/
noncomputable def stellConfig : PyDict (ArgVal ℝ) :=
  (defaultConfig realLits).update
    [("boundary_type".toList, .str "rotating_ellipse".toList), ("eps".toList, .float (realLits.lit 33 2)), ("kappa".toList, .float (realLits.lit 11 1)),
     ("q_star".toList, .float (realLits.lit 154 2)), ("n_fp".toList, .int 3), ("n_r".toList, .int 8), ("n_theta".toList, .int 8), ("n_zeta".toList, .int 4),
     ("dt".toList, .float (realLits.lit 1 4))]

/-- The sizes in GitHub Actions; `scripts/config_scripts/solovev.py:34-40`. -/
def actionsSizes : PyDict (ArgVal ℝ) :=
  [("n_r".toList, .int 4), ("n_theta".toList, .int 4), ("n_zeta".toList, .int 4), ("p_r".toList, .int 2), ("p_theta".toList, .int 2), ("p_zeta".toList, .int 2)]

section
variable (P : PyChars ℝ) (zero : ℝ → Bool)

/-- `solovev.py` up to the assertion, with the parsed command line; `scripts/config_scripts/solovev.py:31-77`. -/
noncomputable def solovevRun (inActions : Bool) (params : PyDict (ArgVal ℝ)) : Except String DeRham :=
  match updateConfig P zero (devicePresets realLits) params (defaultConfig realLits) with
  | .error e => .error e
  | .ok c => solovevBuild (if inActions then c.update actionsSizes else c)

/-- `iter_islands.py` up to the assertion; `scripts/config_scripts/iter_islands.py:19-65`. -/
noncomputable def iterRun (params : PyDict (ArgVal ℝ)) : Except String DeRham :=
  match updateConfig P zero (devicePresets realLits) params iterConfig with
  | .error e => .error e
  | .ok c => iterBuild c

/-- `stell.py` up to the assertion; `scripts/config_scripts/stell.py:18-62`. -/
noncomputable def stellRun (params : PyDict (ArgVal ℝ)) : Except String DeRham :=
  match updateConfig P zero (devicePresets realLits) params stellConfig with
  | .error e => .error e
  | .ok c => stellBuild c

end
end Mrx
