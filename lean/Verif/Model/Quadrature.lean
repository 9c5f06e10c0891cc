import Verif.Model.SplineBases
import Mathlib.Data.Rat.Cast.Defs

/-!
# Model of `mrx/quadrature.py`

The decimal literals of the tables are kept as exact rationals.
-/

namespace Mrx.Quad

/-- `gauss_1_nodes`, `mrx/quadrature.py:262-264`. -/
def gauss1Nodes : List Rat :=
  [0]

/-- `gauss_1_weights`, `mrx/quadrature.py:266-268`. -/
def gauss1Weights : List Rat :=
  [20/10]

/-- `gauss_2_nodes`, `mrx/quadrature.py:270-273`. -/
def gauss2Nodes : List Rat :=
  [-5773502691896258/10000000000000000,
   5773502691896258/10000000000000000]

/-- `gauss_2_weights`, `mrx/quadrature.py:275-278`. -/
def gauss2Weights : List Rat :=
  [10/10,
   10/10]

/-- `gauss_3_nodes`, `mrx/quadrature.py:280-284`. -/
def gauss3Nodes : List Rat :=
  [-7745966692414834/10000000000000000,
   0,
   7745966692414834/10000000000000000]

/-- `gauss_3_weights`, `mrx/quadrature.py:286-290`. -/
def gauss3Weights : List Rat :=
  [5555555555555556/10000000000000000,
   8888888888888888/10000000000000000,
   5555555555555556/10000000000000000]

/-- `gauss_4_nodes`, `mrx/quadrature.py:292-297`. -/
def gauss4Nodes : List Rat :=
  [-8611363115940526/10000000000000000,
   -3399810435848563/10000000000000000,
   3399810435848563/10000000000000000,
   8611363115940526/10000000000000000]

/-- `gauss_4_weights`, `mrx/quadrature.py:299-304`. -/
def gauss4Weights : List Rat :=
  [3478548451374538/10000000000000000,
   6521451548625461/10000000000000000,
   6521451548625461/10000000000000000,
   3478548451374538/10000000000000000]

/-- `gauss_5_nodes`, `mrx/quadrature.py:306-312`. -/
def gauss5Nodes : List Rat :=
  [-9061798459386640/10000000000000000,
   -5384693101056831/10000000000000000,
   0,
   5384693101056831/10000000000000000,
   9061798459386640/10000000000000000]

/-- `gauss_5_weights`, `mrx/quadrature.py:314-320`. -/
def gauss5Weights : List Rat :=
  [2369268850561891/10000000000000000,
   4786286704993665/10000000000000000,
   5688888888888889/10000000000000000,
   4786286704993665/10000000000000000,
   2369268850561891/10000000000000000]

/-- `gauss_6_nodes`, `mrx/quadrature.py:322-329`. -/
def gauss6Nodes : List Rat :=
  [-9324695142031521/10000000000000000,
   -6612093864662645/10000000000000000,
   -2386191860831969/10000000000000000,
   2386191860831969/10000000000000000,
   6612093864662645/10000000000000000,
   9324695142031521/10000000000000000]

/-- `gauss_6_weights`, `mrx/quadrature.py:331-338`. -/
def gauss6Weights : List Rat :=
  [1713244923791704/10000000000000000,
   3607615730481386/10000000000000000,
   4679139345726910/10000000000000000,
   4679139345726910/10000000000000000,
   3607615730481386/10000000000000000,
   1713244923791704/10000000000000000]

/-- `gauss_7_nodes`, `mrx/quadrature.py:340-348`. -/
def gauss7Nodes : List Rat :=
  [-9491079123427585/10000000000000000,
   -7415311855993945/10000000000000000,
   -4058451513773972/10000000000000000,
   0,
   4058451513773972/10000000000000000,
   7415311855993945/10000000000000000,
   9491079123427585/10000000000000000]

/-- `gauss_7_weights`, `mrx/quadrature.py:350-358`. -/
def gauss7Weights : List Rat :=
  [1294849661688697/10000000000000000,
   2797053914892766/10000000000000000,
   3818300505051189/10000000000000000,
   4179591836734694/10000000000000000,
   3818300505051189/10000000000000000,
   2797053914892766/10000000000000000,
   1294849661688697/10000000000000000]

/-- `gauss_8_nodes`, `mrx/quadrature.py:360-369`. -/
def gauss8Nodes : List Rat :=
  [-9602898564975363/10000000000000000,
   -7966664774136267/10000000000000000,
   -5255324099163290/10000000000000000,
   -1834346424956498/10000000000000000,
   1834346424956498/10000000000000000,
   5255324099163290/10000000000000000,
   7966664774136267/10000000000000000,
   9602898564975363/10000000000000000]

/-- `gauss_8_weights`, `mrx/quadrature.py:371-380`. -/
def gauss8Weights : List Rat :=
  [1012285362903763/10000000000000000,
   2223810344533745/10000000000000000,
   3137066458778873/10000000000000000,
   3626837833783620/10000000000000000,
   3626837833783620/10000000000000000,
   3137066458778873/10000000000000000,
   2223810344533745/10000000000000000,
   1012285362903763/10000000000000000]

/-- `gauss_9_nodes`, `mrx/quadrature.py:382-392`. -/
def gauss9Nodes : List Rat :=
  [-9681602395076261/10000000000000000,
   -8360311073266358/10000000000000000,
   -6133714327005904/10000000000000000,
   -3242534234038089/10000000000000000,
   0,
   3242534234038089/10000000000000000,
   6133714327005904/10000000000000000,
   8360311073266358/10000000000000000,
   9681602395076261/10000000000000000]

/-- `gauss_9_weights`, `mrx/quadrature.py:394-404`. -/
def gauss9Weights : List Rat :=
  [812743883615744/10000000000000000,
   1806481606948574/10000000000000000,
   2606106964029354/10000000000000000,
   3123470770400029/10000000000000000,
   3302393550012598/10000000000000000,
   3123470770400029/10000000000000000,
   2606106964029354/10000000000000000,
   1806481606948574/10000000000000000,
   812743883615744/10000000000000000]

/-- `gauss_10_nodes`, `mrx/quadrature.py:406-417`. -/
def gauss10Nodes : List Rat :=
  [-9739065285171717/10000000000000000,
   -8650633666889845/10000000000000000,
   -6794095682990244/10000000000000000,
   -4333953941292472/10000000000000000,
   -1488743389816312/10000000000000000,
   1488743389816312/10000000000000000,
   4333953941292472/10000000000000000,
   6794095682990244/10000000000000000,
   8650633666889845/10000000000000000,
   9739065285171717/10000000000000000]

/-- `gauss_10_weights`, `mrx/quadrature.py:419-430`. -/
def gauss10Weights : List Rat :=
  [666713443086881/10000000000000000,
   1494513491505806/10000000000000000,
   2190863625159820/10000000000000000,
   2692667193099963/10000000000000000,
   2955242247147529/10000000000000000,
   2955242247147529/10000000000000000,
   2692667193099963/10000000000000000,
   2190863625159820/10000000000000000,
   1494513491505806/10000000000000000,
   666713443086881/10000000000000000]

/-- `nodes_and_weights(n)`, `mrx/quadrature.py:214-257`: every `n` outside `1..9` gets the 10-point rule. -/
def nodesAndWeights (n : Nat) : List Rat × List Rat :=
  if n = 1 then (gauss1Nodes, gauss1Weights)
  else if n = 2 then (gauss2Nodes, gauss2Weights)
  else if n = 3 then (gauss3Nodes, gauss3Weights)
  else if n = 4 then (gauss4Nodes, gauss4Weights)
  else if n = 5 then (gauss5Nodes, gauss5Weights)
  else if n = 6 then (gauss6Nodes, gauss6Weights)
  else if n = 7 then (gauss7Nodes, gauss7Weights)
  else if n = 8 then (gauss8Nodes, gauss8Weights)
  else if n = 9 then (gauss9Nodes, gauss9Weights)
  else (gauss10Nodes, gauss10Weights)

variable {K : Type*} [Field K]

/-- `_rescale(a, b)` in `composite_quad`, `mrx/quadrature.py:126-139`. -/
def rescale (xw : List Rat × List Rat) (a b : K) : List K × List K :=
  (xw.1.map fun (x : Rat) => ((x : K) + 1) / 2 * (b - a) + a, xw.2.map fun (w : Rat) => (w : K) * (b - a) / 2)

/-- `composite_quad(T, p)`, `mrx/quadrature.py:111-151`: one rescaled rule per pair of consecutive
entries of `T`, flattened. -/
def compositeQuad (T : List K) (p : Nat) : List K × List K :=
  let els := (Jax.slice T 0 (-1)).zip (Jax.slice T 1 T.length)
  (els.flatMap fun e => (rescale (nodesAndWeights p) e.1 e.2).1,
   els.flatMap fun e => (rescale (nodesAndWeights p) e.1 e.2).2)

/-- `trapezoidal_quad(n)`, `mrx/quadrature.py:81-108`. -/
def trapezoidalQuad (K : Type*) [Field K] (n : Nat) : List K × List K :=
  if n = 1 then ([0], [1])
  else
    let h : K := 1 / ((n - 1 : Nat) : K)
    (Jax.linspace01 K n,
     (List.range n).map fun i => if i = 0 ∨ i = n - 1 then h / 2 else h)

/-- `spectral_quad(p)`, `mrx/quadrature.py:154-187`: no branch assigns the local variables for `p`
outside `1..10`, so Python raises `UnboundLocalError`. -/
def spectralQuad (K : Type*) [Field K] (p : Nat) : Except String (List K × List K) :=
  if 1 ≤ p ∧ p ≤ 10 then
    .ok ((nodesAndWeights p).1.map fun (x : Rat) => ((x : K) + 1) / 2, (nodesAndWeights p).2.map fun (w : Rat) => (w : K) / 2)
  else .error "UnboundLocalError"

/-- `select_quadrature(basis, n)`, `mrx/quadrature.py:190-211`. -/
def selectQuadrature (b : SplineBasis K) (n : Nat) : Except String (List K × List K) :=
  if b.type = "clamped" then .ok (compositeQuad (Jax.slice b.T b.p (-(b.p : Int))) n)
  else if b.type = "periodic" then .ok (compositeQuad (Jax.slice b.T b.p (-(b.p : Int))) n)
  else if b.type = "fourier" then .ok (trapezoidalQuad K (2 * n))
  else spectralQuad K 1

/-- `QuadratureRule.__init__`, `mrx/quadrature.py:42-78`. `jnp.meshgrid` uses Cartesian ('xy') indexing,
so the flattened order runs over y, then x, then z (z fastest). -/
structure Rule (K : Type*) where
  xx : List K
  xy : List K
  xz : List K
  wx : List K
  wy : List K
  wz : List K
  x : List (K × K × K)
  w : List K

/-- The construction of `QuadratureRule.x`, `.w` from the three 1-D rules,
`mrx/quadrature.py:55-63`. -/
def Rule.ofRules (rx ry rz : List K × List K) : Rule K where
  xx := rx.1
  xy := ry.1
  xz := rz.1
  wx := rx.2
  wy := ry.2
  wz := rz.2
  x := ry.1.flatMap fun y => rx.1.flatMap fun x => rz.1.map fun z => (x, y, z)
  w := ry.2.flatMap fun y => rx.2.flatMap fun x => rz.2.map fun z => x * y * z

/-- `QuadratureRule.__init__` with its three 1-D bases, `mrx/quadrature.py:50-78`. -/
def Rule.mk? (bx by' bz : SplineBasis K) (p : Nat) : Except String (Rule K) :=
  match selectQuadrature bx p, selectQuadrature by' p, selectQuadrature bz p with
  | .ok rx, .ok ry, .ok rz => .ok (Rule.ofRules rx ry rz)
  | _, _, _ => .error "UnboundLocalError"

end Mrx.Quad
