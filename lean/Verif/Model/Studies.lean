import Verif.Model.Scripts
import Verif.Model.Manufactured

/-!
# Convergence studies of the tutorials and of `scripts/interactive/cylinder_vector_poisson.py`

`run_convergence_analysis(ns, ps)` fills three tables by two passes over all pairs of a number of splines and a degree, and `plot_results` draws
their columns. `get_err` and `time.time()` are parameters of the loop: the value of a call may depend on how many calls were made before (`call c n p`
is the outcome of the `c`-th call, counted from 0), the clock on the number of readings. Printing is not modelled. The three `get_err` of the
tutorials are modelled below.
-/

namespace Mrx.Studies

/-- A two-dimensional numpy array. -/
abbrev Grid2 := List (List ℝ)

/-- `np.zeros((a, b))`; `scripts/tutorials/polar_poisson.py:121-122,142`. -/
def zeros (a b : Nat) : Grid2 := List.replicate a (List.replicate b 0)

/-- `t[i, j] = v`; `scripts/tutorials/polar_poisson.py:130,133,146,149`. The indices come from `enumerate`, so they are in range. -/
def setEntry (t : Grid2) (i j : Nat) (v : ℝ) : Grid2 := t.modify i (fun row => row.set j v)

/-- `t[i, j]`. -/
def entry (t : Grid2) (i j : Nat) : ℝ := (t.getD i []).getD j 0

/-- The pairs in the order of `for i, n in enumerate(ns): for j, p in enumerate(ps)`; `scripts/tutorials/polar_poisson.py:126-127`. -/
def pairs (ns ps : List Nat) : List ((Nat × Nat) × (Nat × Nat)) :=
  ns.zipIdx.flatMap fun ni => ps.zipIdx.map fun pj => ((ni.2, pj.2), (ni.1, pj.1))

/-- One pass; `scripts/tutorials/polar_poisson.py:126-136` and `143-150`, `mixed_polar_poisson.py:134-144,151-158`, `toroid_poisson.py:125-135,142-149`,
`scripts/interactive/cylinder_vector_poisson.py:143-149,154-160`. `c` counts the calls of `get_err` so far; each of them is between two readings of the clock.
With `store = false` (second pass of `cylinder_vector_poisson.py`, `_ = get_err(n, p)`) the error is not stored. -/
def pass (call : Nat → Nat → Nat → Except String ℝ) (clock : Nat → ℝ) (store : Bool) :
    List ((Nat × Nat) × (Nat × Nat)) → Nat → Grid2 → Grid2 → Except String (Grid2 × Grid2 × Nat)
  | [], c, err, times => .ok (err, times, c)
  | ((i, j), (n, p)) :: rest, c, err, times =>
    match call c n p with
    | .error e => .error e
    | .ok v => pass call clock store rest (c + 1) (if store then setEntry err i j v else err)
        (setEntry times i j (clock (2 * c + 1) - clock (2 * c)))

/-- What `run_convergence_analysis` returns. -/
structure Result where
  err : Grid2
  times : Grid2
  times2 : Grid2

/-- `run_convergence_analysis(ns, ps)`; `scripts/tutorials/polar_poisson.py:108-151`, `mixed_polar_poisson.py:116-159`, `toroid_poisson.py:105-150` (`store = true`),
`scripts/interactive/cylinder_vector_poisson.py:126-163` (`store = false`). -/
def run (call : Nat → Nat → Nat → Except String ℝ) (clock : Nat → ℝ) (store : Bool) (ns ps : List Nat) : Except String Result :=
  match pass call clock true (pairs ns ps) 0 (zeros ns.length ps.length) (zeros ns.length ps.length) with
  | .error e => .error e
  | .ok (err, times, c) =>
    match pass call clock store (pairs ns ps) c err (zeros ns.length ps.length) with
    | .error e => .error e
    | .ok (err', times2, _) => .ok ⟨err', times, times2⟩

/-- `np.arange(a, b, s)` for natural numbers and `s > 0`; used by `main`. -/
def arange (a b s : Nat) : List Nat := (List.range ((b - a + s - 1) / s)).map fun k => a + k * s

/-! ## The figures -/

/-- A curve handed to matplotlib: the degree in its label and its points. -/
structure Curve where
  degree : Nat
  points : List (ℝ × ℝ)

/-- `plt.loglog(ns, t[:, j], label=f"p={p}")` for every degree; `scripts/tutorials/polar_poisson.py:172-174` (error), `186-188`, `200-202` (times). -/
def columns (t : Grid2) (ns ps : List Nat) : List Curve :=
  ps.zipIdx.map fun pj => ⟨pj.1, ns.zipIdx.map fun ni => ((ni.1 : ℝ), entry t ni.2 pj.2)⟩

/-- `speedup = times[:, j] / times2[:, j]`; `scripts/tutorials/polar_poisson.py:213-216`. (A second time of 0 gives infinity in the code, 0 here.) -/
noncomputable def speedups (r : Result) (ns ps : List Nat) : List Curve :=
  ps.zipIdx.map fun pj => ⟨pj.1, ns.zipIdx.map fun ni => ((ni.1 : ℝ), entry r.times ni.2 pj.2 / entry r.times2 ni.2 pj.2)⟩

/-- `expected_rate = 2 * p - 1 * (p != 1)`; `scripts/interactive/cylinder_vector_poisson.py:187`. -/
def expectedRate (p : Nat) : Int := 2 * p - 1 * (if p ≠ 1 then 1 else 0)

/-- `plt.loglog(ns, err[-1, j] * (ns/ns[-1])**(-expected_rate))`; `scripts/interactive/cylinder_vector_poisson.py:186-189`, with `ns` a numpy array (as in `main`; a list
raises TypeError). -/
noncomputable def references (err : Grid2) (ns ps : List Nat) : List Curve :=
  ps.zipIdx.map fun pj => ⟨pj.1, ns.map fun n : Nat => ((n : ℝ), entry err (ns.length - 1) pj.2 * ((n : ℝ) / ((ns.getLastD 0 : Nat) : ℝ)) ^ (-expectedRate pj.1))⟩

/-! ## The errors of the tutorials -/

/-- `jnp.ones(1) * v`. -/
def scalar (f : V3 → ℝ) : V3 → Fin 1 → ℝ := fun x _ => f x

/-- `get_err(n, p, q)`; `scripts/tutorials/polar_poisson.py:37-105`. -/
noncomputable def polarErr (n p q : Nat) : Except String ℝ :=
  match DeRham.mk? (n, n, 1) (p, p, 0) q ("clamped", "periodic", "constant") polarMap true true with
  | .error e => .error e
  | .ok D => .ok (D.relativeError (scalar Manufactured.polarU) (D.phys0 (D.poisson0 (scalar Manufactured.polarF))))

/-- `get_err(n, p, q)`; `scripts/tutorials/mixed_polar_poisson.py:42-113`. -/
noncomputable def mixedErr (n p q : Nat) : Except String ℝ :=
  match DeRham.mk? (n, n, 1) (p, p, 0) q ("clamped", "periodic", "constant") polarMap true false with
  | .error e => .error e
  | .ok D => .ok (D.relativeError (scalar Manufactured.mixedU) (D.phys3 (D.poisson3 (scalar Manufactured.mixedF))))

/-- `get_err(n, p, q)`; `scripts/tutorials/toroid_poisson.py:32-102`. -/
noncomputable def toroidErr (n p q : Nat) : Except String ℝ :=
  match DeRham.mk? (n, n, n) (p, p, p) q ("clamped", "periodic", "periodic") (toroidMap (1 / 3) 1 1) true true with
  | .error e => .error e
  | .ok D => .ok (D.relativeError (scalar Manufactured.toroidU) (D.phys0 (D.poisson0 (scalar (Manufactured.toroidF (1 / 3))))))

end Mrx.Studies
