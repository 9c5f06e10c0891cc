import Mathlib.Data.Nat.Basic

/-!
# Betti numbers of the domains of a `DeRhamSequence`

With `polar = True` the logical cube (clamped radius, periodic angles) is mapped to a solid torus; with `polar = False` it is a toroidal
shell (torus times interval). Without boundary conditions the cohomology is that of the domain; with Dirichlet conditions on the radial
boundary it is the cohomology relative to the boundary, which by Lefschetz duality has the Betti numbers in the opposite order.
-/

namespace Mrx.Spec

/-- Betti numbers of a solid torus (one component, one loop). -/
def bettiSolidTorus : Nat → Nat
  | 0 => 1
  | 1 => 1
  | _ => 0

/-- Betti numbers of a toroidal shell (one component, two loops, one cavity). -/
def bettiShell : Nat → Nat
  | 0 => 1
  | 1 => 2
  | 2 => 1
  | _ => 0

/-- Basis types of a solid torus or toroidal shell: clamped in radius, not clamped (periodic or constant) in the two angles. -/
structure Toroidal (types : String × String × String) : Prop where
  r : types.1 = "clamped"
  t : types.2.1 ≠ "clamped"
  z : types.2.2 ≠ "clamped"

/-- Betti number of degree `k ≤ 3` of the complex. -/
def betti (polar dirichlet : Bool) (k : Nat) : Nat :=
  let b := if polar then bettiSolidTorus else bettiShell
  b (if dirichlet then 3 - k else k)

end Mrx.Spec
