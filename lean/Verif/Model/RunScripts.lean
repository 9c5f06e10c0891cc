import Verif.Model.PlotScripts

/-!
# Model of `run_scripts.py`

The state of the computer (files, environment) is an arbitrary type `W`. Listing a directory and running a script are arbitrary functions of it, either of which can raise. Numbers printed for the run
time are left out.
-/

namespace Mrx.RunScripts
open IO

/-- What `subprocess.run(..., capture_output=True, text=True)` returns: the outputs and the return code. -/
structure Result where
  out : PyStr
  err : PyStr
  code : Int

/-- What the script prints. -/
inductive Line where
  /-- `Running {file_path}...` -/
  | running (path : PyStr)
  /-- `Output of {file}:` and the output -/
  | output (file text : PyStr)
  /-- `Errors in {file}:` and the text -/
  | errors (file text : PyStr)
  /-- `Total run time = ...` -/
  | time

/-- What the computer does: `os.listdir(directory)`, and `subprocess.run(["python", file_path], ...)` with the state it leaves. -/
structure Machine (W : Type) where
  listdir : W → PyStr → Except String (List PyStr)
  python : W → PyStr → Except String (Result × W)

variable {W : Type} (M : Machine W)

/-- The loop of `run_all_scripts`; `run_scripts.py:9-29`. -/
def runFiles (dir : PyStr) : List PyStr → W → List Line × Except String W
  | [], w => ([], .ok w)
  | file :: rest, w =>
    let path := joinPath dir file
    match M.python w path with
    | .error e => ([.running path], .error e)
    | .ok (r, w') =>
      let l := runFiles dir rest w'
      ([.running path, .output file r.out] ++ (if r.err = [] then [] else [.errors file r.err]) ++ [.time] ++ l.1, l.2)

/-- `f.endswith(".py")`. -/
def isPy (f : PyStr) : Bool := ".py".toList.isSuffixOf f

/-- `run_all_scripts(directory)`; `run_scripts.py:5-29`. -/
def runAllScripts (dir : PyStr) (w : W) : List Line × Except String W :=
  match M.listdir w dir with
  | .error e => ([], .error e)
  | .ok files => runFiles M dir (files.filter isPy) w

/-- `python run_scripts.py`; `run_scripts.py:31-36`. -/
def main (w : W) : List Line × Except String W :=
  match runAllScripts M "scripts/tutorials".toList w with
  | (l, .error e) => (l, .error e)
  | (l, .ok w') =>
    let r := runAllScripts M "scripts/interactive/".toList w'
    (l ++ r.1, r.2)

/-- The exit code of the interpreter: 1 after an exception. -/
def exitCode (r : List Line × Except String W) : Int :=
  match r.2 with
  | .ok _ => 0
  | .error _ => 1

end Mrx.RunScripts
