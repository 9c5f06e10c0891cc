import Verif.Model.Scripts
import Mathlib.Data.List.Sort

/-!
# Model of `scripts/interactive/cylinder_cavity.py`

The saddle point eigenvalue problem, the table of analytic eigenvalues and the comparison of computed with analytic eigenvalues. The library functions
`scipy.special.jnp_zeros` and `jn_zeros` are a parameter (`none` stands for a `ValueError`).
-/

set_option linter.unusedVariables false

namespace Mrx
open Matrix

namespace DeRham
variable (D : DeRham)

/-- `Q = jnp.block([[C, D0], [D0.T, O0]])`; `scripts/interactive/cylinder_cavity.py:58, 62-66`. -/
noncomputable def cavityQ : Matrix (Fin D.m1 ⊕ Fin D.m0) (Fin D.m1 ⊕ Fin D.m0) ℝ := fromBlocks D.doubleCurl D.D0 D.D0ᵀ 0

/-- `P = jnp.block([[M1, O10], [O10.T, O0]])`; `scripts/interactive/cylinder_cavity.py:67`. -/
noncomputable def cavityP : Matrix (Fin D.m1 ⊕ Fin D.m0) (Fin D.m1 ⊕ Fin D.m0) ℝ := fromBlocks D.M1 0 0 0

end DeRham

namespace Cavity

/-- `xs[i]` of Python: negative indices count from the end. -/
def pyGet (xs : List ℝ) (i : Int) : Except String ℝ :=
  if 0 ≤ i then (match xs[i.toNat]? with | some x => .ok x | none => .error "IndexError")
  else if 0 ≤ i + xs.length then (match xs[(i + xs.length).toNat]? with | some x => .ok x | none => .error "IndexError")
  else .error "IndexError"

/-- A loop whose body appends to a list or raises. -/
def collect : List (Except String (List ℝ)) → Except String (List ℝ)
  | [] => .ok []
  | .error e :: _ => .error e
  | .ok l :: xs => match collect xs with
    | .error e => .error e
    | .ok r => .ok (l ++ r)

/-- The eigenvalue of one mode; `scripts/interactive/cylinder_cavity.py:171-173, 205-208`. -/
noncomputable def modeEigenvalue (a h root : ℝ) (k : Int) : ℝ := (root / a) ^ 2 + (2 * k * Real.pi / h) ^ 2

/-- `azimuthal_multiplicity * axial_multiplicity`; `scripts/interactive/cylinder_cavity.py:175-177, 210-212`. -/
def multiplicity (n k : Int) : Nat := (if n = 0 then 1 else 2) * (if k = 0 then 1 else 2)

/-- The entries appended for one `n` and one `m`, if `zeros` are the roots found; `scripts/interactive/cylinder_cavity.py:164-180, 193-215`. -/
noncomputable def radialEntries (a h : ℝ) (kv : List Int) (n : Int) (zeros : List ℝ) (m : Int) : Except String (List ℝ) :=
  if m - 1 < zeros.length then
    match pyGet zeros (m - 1) with
    | .error e => .error e
    | .ok root => .ok (kv.flatMap fun k => List.replicate (multiplicity n k) (modeEigenvalue a h root k))
  else .ok []

/-- One of the two loops (TE or TM); `scripts/interactive/cylinder_cavity.py:149-180, 182-215`. -/
noncomputable def modeLoop (zeros : Int → Nat → Option (List ℝ)) (a h : ℝ) (nv mv kv : List Int) (maxM : Int) : Except String (List ℝ) :=
  collect (nv.map fun n => match zeros n maxM.toNat with
    | none => .ok []
    | some z => collect (mv.map fun m => radialEntries a h kv n z m))

/-- `calculate_cylindrical_periodic_TE_TM_eigenvalues`; `scripts/interactive/cylinder_cavity.py:88-221`. -/
noncomputable def eigenvalueTable (zerosTE zerosTM : Int → Nat → Option (List ℝ)) (nv mv kv : List Int) (a h : ℝ) : Except String (List ℝ) :=
  if ¬ (a > 0 ∧ h > 0) then .error "ValueError: Radius 'a' and period 'h' must be positive."
  else match mv.max? with
    | none => .ok []
    | some maxM =>
      if maxM ≤ 0 then .error "ValueError: m_values"
      else if kv.any (· < 0) then .error "ValueError: k_axial_values"
      else if nv.any (· < 0) then .error "ValueError: n_values"
      else match modeLoop zerosTE a h nv mv kv maxM with
        | .error e => .error e
        | .ok te => match modeLoop zerosTM a h nv mv kv maxM with
          | .error e => .error e
          | .ok tm => .ok ((te ++ tm).insertionSort (· ≤ ·))

/-- `dist`: `jnp.min(jnp.abs(true_evs - ev)/true_evs)`, an exception for an empty table; `scripts/interactive/cylinder_cavity.py:260-270`. -/
noncomputable def dist (ev : ℝ) (trueEvs : List ℝ) : Option ℝ := (trueEvs.map fun t => |t - ev| / t).min?

open Classical in
/-- `check_eigenvalues`; `scripts/interactive/cylinder_cavity.py:273-284`. -/
noncomputable def checkEigenvalues (evs trueEvs : List ℝ) (tol : ℝ) : Option Bool :=
  if trueEvs = [] then none else some (evs.all fun e => match dist e trueEvs with | some d => decide (d < tol) | none => false)

end Cavity
end Mrx
