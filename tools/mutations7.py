# (module, definition, old, new, [claims broken], description)
S, FL, X, A, P = 'Model.SplineBases', 'Model.Float', 'Model.Extraction', 'Model.Assembly', 'Model.Projectors'
MUTATIONS = [
 (FL, 'lt', '| negInf, _ => True\n  | fin _, negInf => False\n  | fin _, posInf => True', '| negInf, _ => False\n  | fin _, negInf => False\n  | fin _, posInf => True', ['C41'], 'rerun: -inf < x false'),
 (FL, 'lt', '| nan, _ => False\n  | _, nan => False\n  | posInf, _ => False', '| nan, _ => True\n  | _, nan => False\n  | posInf, _ => False', ['C41'], 'rerun: NaN < x true'),
 (FL, 'clip01', '| nan => nan', '| nan => fin 0', ['C41'], 'rerun: NaN clipped to a number'),
 (FL, 'div', '| nan, _ => nan', '| nan, _ => fin 0', ['C41'], 'NaN / x = 0'),
 (S, 'evaluate', 'if i = (s.n : Int) - 1 ∧ x = Jax.get s.T (-1) then 1', 'if i = (s.n : Int) ∧ x = Jax.get s.T (-1) then 1', ['C86', 'C87', 'C88', 'C89'], 'end point rule attached to the wrong spline'),
 (S, 'evaluate', "if i < s.p then s.evaluate' x i + s.evaluate' x (s.n + i)", "if i < s.p - 1 then s.evaluate' x i + s.evaluate' x (s.n + i)", ['C86', 'C88'], 'one wrapped spline missing'),
 (S, 'pSpline', '(Jax.get t ((p + 2 : Nat) : Int) - x)', '(Jax.get t ((p + 1 : Nat) : Int) - x)', ['C86', 'C88'], 'wrong knot in the descending factor'),
 (S, 'initKnots', 'List.replicate p 0 ++', 'List.replicate (p - 1) 0 ++', ['C86', 'C88', 'C89'], 'start knot multiplicity p'),
 (S, 'constSpline', 'Jax.get t 0 ≤ x ∧ x < Jax.get t 1', 'Jax.get t 0 < x ∧ x ≤ Jax.get t 1', ['C86', 'C89'], 'left-continuous'),
 (S, 'mk?', 'let T := if s.type = "periodic" then Jax.slice s.T 1 (-1) else s.T', 'let T := s.T', ['C86'], 'derivative knots not trimmed'),
 (S, 'initKnots', '(Jax.slice T0 1 ((p : Int) + 1)).map (· + 1)', '(Jax.slice T0 0 ((p : Int))).map (· + 1)', ['C86', 'C88'], 'knot 1 repeated at the seam'),
]
