import Verif.Model.Studies

/-!
# `scripts/interactive/toroid_poisson.py`

A script run from the command line with a number of splines and a degree. `int(...)` of a string (`parse`), the format `.18e` of a number (`fmt`), and `jnp.linalg.cond` (`cond`) are
parameters. The file system is a function from paths to the list of lines; the directory is taken to exist after `os.makedirs`. What is printed is not modelled.
-/

namespace Mrx.ToroidScript
open Matrix

/-- `jnp.sum(jnp.abs(A) > 1e-12) / A.size`; `scripts/interactive/toroid_poisson.py:105` (`Seq.dd0` has the shape of `Seq.M0 @ Seq.dd0`). -/
noncomputable def sparsity {m : Nat} (A : Matrix (Fin m) (Fin m) ℝ) : ℝ :=
  ((Finset.univ.filter fun ij : Fin m × Fin m => 1e-12 < |A ij.1 ij.2|).card : ℝ) / ((m * m : Nat) : ℝ)

/-- `get_err(n, p)`: error, condition number, sparsity; `scripts/interactive/toroid_poisson.py:17-105`. The number of quadrature points is `q = p`. A singular system gives the solution 0 here
(`solve` is the product with the inverse), numbers without meaning in the code. -/
noncomputable def getErr (cond : (m : Nat) → Matrix (Fin m) (Fin m) ℝ → ℝ) (n p : Nat) : Except String (ℝ × ℝ × ℝ) :=
  match DeRham.mk? (n, n, n) (p, p, p) p ("clamped", "periodic", "periodic") (toroidMap (1 / 3) 1 1) true true with
  | .error e => .error e
  | .ok D => .ok (D.relativeError (Studies.scalar Manufactured.toroidU2) (D.phys0 (D.poisson0 (Studies.scalar (Manufactured.toroidF2 (1 / 3) 1)))),
      cond D.m0 (D.M0 * D.dd0), sparsity (D.M0 * D.dd0))

/-- How the script ends: normally, with `sys.exit(1)`, or with an exception. -/
inductive Exit
  | done
  | code1
  | raised (e : String)
deriving DecidableEq

/-- Path to lines of the text file. -/
abbrev Files := String → Option (List String)

/-- `with open(path, "w") as fh: ...`: the lines replace what was there; `scripts/interactive/toroid_poisson.py:137-140`. -/
def writeFile (fs : Files) (path : String) (lines : List String) : Files := fun q => if q = path then some lines else fs q

/-- `os.path.join("script_outputs", f"toroid_poisson_{n}_{p}.txt")`; `scripts/interactive/toroid_poisson.py:134-135`. -/
def outPath (n p : Int) : String := "script_outputs/" ++ ("toroid_poisson_" ++ n.repr ++ "_" ++ p.repr ++ ".txt")

/-- `main()` with `get_err` as a parameter; `scripts/interactive/toroid_poisson.py:108-143`. -/
def main (parse : String → Option Int) (fmt : ℝ → String) (getErr : Int → Int → Except String (ℝ × ℝ × ℝ)) (argv : List String) (fs : Files) : Exit × Files :=
  if argv.length < 3 then (.code1, fs)
  else
    match parse (argv.getD 1 ""), parse (argv.getD 2 "") with
    | some n, some p =>
      match getErr n p with
      | .error e => (.raised e, fs)
      | .ok (error, cond, sparsity) =>
        (.done, writeFile fs (outPath n p) ["error " ++ fmt error, "sparsity " ++ fmt sparsity, "cond " ++ fmt cond])
    | _, _ => (.code1, fs)

/-- The script several times in a row. -/
def runs (parse : String → Option Int) (fmt : ℝ → String) (getErr : Int → Int → Except String (ℝ × ℝ × ℝ)) (calls : List (List String)) (fs : Files) : Files :=
  calls.foldl (fun fs argv => (main parse fmt getErr argv fs).2) fs

/-- The step `Run script` of the continuous integration: each command line is tried until one ends normally; `.github/workflows/ci.yml` (`python script maxit=10 run_name=ci_test || python script 8 3 ||
python script run_name=ci_test || python script`). -/
def firstOk (parse : String → Option Int) (fmt : ℝ → String) (getErr : Int → Int → Except String (ℝ × ℝ × ℝ)) : List (List String) → Files → Bool × Files
  | [], fs => (false, fs)
  | argv :: rest, fs =>
    match main parse fmt getErr argv fs with
    | (.done, fs') => (true, fs')
    | (_, fs') => firstOk parse fmt getErr rest fs'

/-- The command lines of the continuous integration; `.github/workflows/ci.yml`. -/
def ciCalls (script : String) : List (List String) :=
  [[script, "maxit=10", "run_name=ci_test"], [script, "8", "3"], [script, "run_name=ci_test"], [script]]

end Mrx.ToroidScript
