import Verif.Jax

/-!
# Model of `mrx/spline_bases.py`
-/

namespace Mrx

variable {K : Type*} [Field K] [LinearOrder K]

/-- Attributes of a `SplineBasis` object. `mrx/spline_bases.py:24-28`.
(`ns = arange(n)` is omitted: it is determined by `n`.) -/
structure SplineBasis (K : Type*) where
  n : Nat
  p : Nat
  type : String
  T : List K

namespace SplineBasis

/-- `SplineBasis._init_knots`, `mrx/spline_bases.py:77-110`.
`jnp.linspace(0, 1, m)` raises `ValueError` for negative `m`; that is the first case of the clamped
branch (`n - p + 1 < 0`). -/
def initKnots (K : Type*) [Field K] (n p : Nat) (type : String) : Except String (List K) :=
  if type = "periodic" then
    let T0 := Jax.linspace01 K (n + 1)
    .ok ((Jax.slice T0 (-((p : Int) + 1)) (-1)).map (· - 1) ++ T0
        ++ (Jax.slice T0 1 ((p : Int) + 1)).map (· + 1))
  else if type = "clamped" then
    if n + 1 < p then .error "ValueError: number of samples must be non-negative"
    else .ok (List.replicate p 0 ++ Jax.linspace01 K (n + 1 - p) ++ List.replicate p 1)
  else if type = "constant" then .ok [0, 1]
  else if type = "fourier" then .ok (Jax.linspace01 K (n + 1))
  else .error "ValueError: Invalid spline type"

/-- `SplineBasis.__init__`, `mrx/spline_bases.py:30-52` (`T? = none` is the default argument). -/
def mk? (n p : Nat) (type : String) (T? : Option (List K) := none) :
    Except String (SplineBasis K) :=
  match (match T? with | some T => Except.ok T | none => initKnots K n p type) with
  | .error e => .error e
  | .ok T =>
    if n ≤ p ∧ p ≠ 1 then
      .error "ValueError: Degree is greater than or equal to the number of splines"
    else if type ∉ ["clamped", "periodic", "constant", "fourier"] then
      .error "ValueError: Invalid spline type"
    else .ok ⟨n, p, type, T⟩

/-- `SplineBasis.__safe_divide`, `mrx/spline_bases.py:154-164`.
(`jnp.where` evaluates both branches; values are unaffected by the discarded one.) -/
def safeDivide (x y : K) : K := if Jax.isclose y 0 then 0 else x / y

/-- `SplineBasis._const_spline`, `mrx/spline_bases.py:166-182`. -/
def constSpline (x : K) (t : List K) : K :=
  if Jax.isclose (Jax.get t 0) (Jax.get t 1) then 0
  else if Jax.get t 0 ≤ x ∧ x < Jax.get t 1 then 1 else 0

/-- `SplineBasis._p_spline`, `mrx/spline_bases.py:184-201`. -/
def pSpline (x : K) : (t : List K) → (p : Nat) → K
  | t, 0 => constSpline x t
  | t, p + 1 =>
      safeDivide (x - Jax.get t 0) (Jax.get t ((p + 1 : Nat) : Int) - Jax.get t 0)
          * pSpline x (Jax.slice t 0 (-1)) p
        + safeDivide (Jax.get t ((p + 2 : Nat) : Int) - x)
            (Jax.get t ((p + 2 : Nat) : Int) - Jax.get t 1)
          * pSpline x (Jax.slice t 1 t.length) p

/-- `SplineBasis._evaluate`, `mrx/spline_bases.py:138-152`. -/
def evaluate' (s : SplineBasis K) (x : K) (i : Int) : K :=
  let knotSlice := Jax.dynamicSlice s.T i (s.p + 2)
  if Jax.get s.T i ≤ x ∧ x ≤ Jax.get s.T (i + s.p + 1) then pSpline x knotSlice s.p else 0

/-- `SplineBasis.evaluate` (and `__call__`, `__getitem__`), `mrx/spline_bases.py:54-75, 112-136`. -/
def evaluate (s : SplineBasis K) (x : K) (i : Int) : K :=
  if s.type = "periodic" then
    if i < s.p then s.evaluate' x i + s.evaluate' x (s.n + i) else s.evaluate' x i
  else if s.type = "clamped" then
    if i = (s.n : Int) - 1 ∧ x = Jax.get s.T (-1) then 1 else s.evaluate' x i
  else 1

end SplineBasis

/-- Attributes of a `DerivativeSpline` object. `mrx/spline_bases.py:282-296`. -/
structure DerivativeSpline (K : Type*) where
  n : Nat
  p : Nat
  type : String
  T : List K
  s : SplineBasis K

namespace DerivativeSpline

/-- `DerivativeSpline.__init__`, `mrx/spline_bases.py:298-310`.
Degree `-1` (derivative of a non-constant degree-0 basis) is rejected here: in the code such an
object can be built but every evaluation of it fails (the recursion `_p_spline` never reaches
degree 0). -/
def mk? (s : SplineBasis K) : Except String (DerivativeSpline K) :=
  let n := if s.type = "clamped" then s.n - 1 else s.n
  let p := if s.type = "constant" then s.p else s.p - 1
  let T := if s.type = "periodic" then Jax.slice s.T 1 (-1) else s.T
  if s.type ≠ "constant" ∧ s.p = 0 then .error "degree -1"
  else match SplineBasis.mk? n p s.type (some T) with
    | .error e => .error e
    | .ok b => .ok ⟨n, p, s.type, T, b⟩

/-- `DerivativeSpline.evaluate` (and `__call__`, `__getitem__`), `mrx/spline_bases.py:312-362`. -/
def evaluate (d : DerivativeSpline K) (x : K) (i : Int) : K :=
  if d.type = "clamped" then
    if i < d.n then
      d.s.evaluate x (i + 1) * ((d.p : K) + 1)
        / (Jax.get d.s.T (i + d.p + 2) - Jax.get d.s.T (i + 1))
    else 0
  else if d.type = "periodic" then
    let j := (i + d.n) % (d.n : Int)
    d.s.evaluate x j * ((d.p : K) + 1) / (Jax.get d.s.T (j + d.p + 1) - Jax.get d.s.T j)
  else 1

end DerivativeSpline

/-- A one-dimensional basis object: `TensorBasis` and the forms use `SplineBasis` and
`DerivativeSpline` interchangeably (attributes `n`, `__call__`). -/
inductive Basis1 (K : Type*) where
  | spline (s : SplineBasis K)
  | deriv (d : DerivativeSpline K)

namespace Basis1

/-- attribute `n`; `mrx/spline_bases.py:40, 304`. -/
def n : Basis1 K → Nat
  | spline s => s.n
  | deriv d => d.n

/-- `b(x, i)`; `mrx/spline_bases.py:54-64, 312-322`. -/
def evaluate : Basis1 K → K → Int → K
  | spline s => s.evaluate
  | deriv d => d.evaluate

end Basis1

/-- Attributes of a `TensorBasis`; `mrx/spline_bases.py:204-238` (`shape`, `n`, `ns` are determined by
`bases`). -/
structure TensorBasis (K : Type*) where
  bases : List (Basis1 K)

namespace TensorBasis

/-- `TensorBasis.__init__`; `mrx/spline_bases.py:220-238`. -/
def mk? (bases : List (Basis1 K)) : Except String (TensorBasis K) :=
  if bases.length ≠ 3 then .error "ValueError: TensorBasis requires exactly 3 bases" else .ok ⟨bases⟩

/-- `self.shape`; `mrx/spline_bases.py:236`. -/
def shape (b : TensorBasis K) : List Nat := b.bases.map Basis1.n

/-- `self.n = bases[0].n * bases[1].n * bases[2].n`; `mrx/spline_bases.py:237`. -/
def n (b : TensorBasis K) : Nat :=
  b.shape.getD 0 0 * b.shape.getD 1 0 * b.shape.getD 2 0

/-- `TensorBasis.evaluate` / `__call__`; `mrx/spline_bases.py:240-279`. The constructor guarantees three
bases. -/
def evaluate (b : TensorBasis K) (x : List K) (i : Nat) : Except String K :=
  if x.length ≠ b.bases.length then .error "ValueError: Input point dimension does not match"
  else match b.bases, x with
    | [b0, b1, b2], [x0, x1, x2] =>
        let ijk := Jax.unravelIndex3 i b0.n b1.n b2.n
        .ok (b0.evaluate x0 ijk.1 * b1.evaluate x1 ijk.2.1 * b2.evaluate x2 ijk.2.2)
    | _, _ => .error "unreachable"

end TensorBasis

end Mrx
