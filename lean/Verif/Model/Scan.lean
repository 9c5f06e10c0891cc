import Verif.Model.Assembly

/-!
# The loops of `assemble`, `evaluate_at_xq`, `integrate_against` as they are written (`mrx/utils.py:139-256`)

`Model/Assembly.lean` models these functions by the sums they are meant to compute. Here they are modelled step by step: `jax.lax.scan`
with its carry, the nested `vmap`s that produce arrays of shape `(n_q, d)`, and the einsum contractions over those arrays. Arrays of shape
`(a, b)` are lists of `a` lists of length `b`.
-/

namespace Mrx.Scan

/-- `jax.lax.scan(f, c, xs)`: the carry is threaded through, the second outputs are stacked. -/
def scan {C X Y : Type} (f : C → X → C × Y) : C → List X → C × List Y
  | c, [] => (c, [])
  | c, x :: xs => ((scan f (f c x).1 xs).1, (f c x).2 :: (scan f (f c x).1 xs).2)

/-- `jax.vmap(jax.vmap(getter, (None, None, 0)), (None, 0, None))(i, arange(n_q), arange(d))`, shape `(n_q, d)`;
`mrx/utils.py:165-174`, `:210-216`, `:245-250`. -/
def getJk (g : Getter) (i nq d : Nat) : List (List ℝ) := (List.range nq).map fun j => (List.range d).map fun k => g i j k

/-- `A[j, k]`. -/
def at2 (A : List (List ℝ)) (j k : Nat) : ℝ := (A.getD j []).getD k 0

/-- `jnp.einsum("jk,jkm,jm->", A, W, B)`. -/
def einsum3 (nq d : Nat) (A : List (List ℝ)) (W : Nat → Nat → Nat → ℝ) (B : List (List ℝ)) : ℝ :=
  ((List.range nq).map fun j => ((List.range d).map fun k => ((List.range d).map fun m => at2 A j k * W j k m * at2 B j m).sum).sum).sum

/-- `body_fun` of `assemble`; `mrx/utils.py:176-184`. -/
def assembleBody (g1 g2 : Getter) (nq d : Nat) (W : Nat → Nat → Nat → ℝ) (n2 : Nat) (_ : Unit) (i : Nat) : Unit × List ℝ :=
  ((), (List.range n2).map fun m => einsum3 nq d (getJk g1 i nq d) W (getJk g2 m nq d))

/-- `assemble(getter_1, getter_2, W, n1, n2)` with `W.shape == (nq, d, d)`; `mrx/utils.py:139-187`. -/
def assemble (g1 g2 : Getter) (nq d : Nat) (W : Nat → Nat → Nat → ℝ) (n1 n2 : Nat) : List (List ℝ) :=
  (scan (assembleBody g1 g2 nq d W n2) () (List.range n1)).2

/-- `carry + L_i * v_i[i]`, entry by entry; `mrx/utils.py:222`. -/
def addScaled (R L : List (List ℝ)) (v : ℝ) : List (List ℝ) := List.zipWith (List.zipWith fun r l => r + l * v) R L

/-- `body_fun` of `evaluate_at_xq`; `mrx/utils.py:219-223`. -/
def evaluateBody (g : Getter) (nq d : Nat) (v : List ℝ) (carry : List (List ℝ)) (i : Nat) : List (List ℝ) × Unit :=
  (addScaled carry (getJk g i nq d) (v.getD i 0), ())

/-- `jnp.zeros_like`; `mrx/utils.py:225-226`. -/
def zerosLike (A : List (List ℝ)) : List (List ℝ) := A.map fun r => r.map fun _ => 0

/-- `evaluate_at_xq(getter, dofs, n_q, d)`; `mrx/utils.py:190-228`. -/
def evaluateAtXq (g : Getter) (dofs : List ℝ) (nq d : Nat) : List (List ℝ) :=
  (scan (evaluateBody g nq d dofs) (zerosLike (getJk g 0 nq d)) (List.range dofs.length)).1

/-- `jnp.sum(L * w)` for arrays of shape `(n_q, d)`; `mrx/utils.py:253`. -/
def sumMul (L w : List (List ℝ)) : ℝ := (List.zipWith (fun a b => (List.zipWith (· * ·) a b).sum) L w).sum

/-- `body_fun` of `integrate_against`; `mrx/utils.py:251-253`. -/
def integrateBody (g : Getter) (nq d : Nat) (w : List (List ℝ)) (_ : Unit) (i : Nat) : Unit × ℝ := ((), sumMul (getJk g i nq d) w)

/-- `integrate_against(getter, w_jk, n)` with `w_jk.shape == (nq, d)`; `mrx/utils.py:231-256`. -/
def integrateAgainst (g : Getter) (w : List (List ℝ)) (nq d n : Nat) : List ℝ := (scan (integrateBody g nq d w) () (List.range n)).2

end Mrx.Scan
