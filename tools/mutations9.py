# (module, definition, old, new, [claims broken], description)
I, SP, MF, IO, RX, LZ = 'Model.Iota', 'Model.SavedPlots', 'Model.Manufactured', 'Model.IO', 'Model.Relaxation', 'Model.LazyMatrices'
MUTATIONS = [
 (MF, 'iterTau', '(kappa + 1)', '(kappa + 2)', ['C85'], 'wrong constant (retest)'),
 (IO, 'ArgVal.truthy', '| .int n => n != 0', '| .int n => n == 0', ['C56'], 'truth value of integers inverted (retest)'),
 (IO, 'ArgVal.truthy', '| .float x => !zero x', '| .float x => zero x', ['C56'], 'truth value of floats inverted'),
 (IO, 'Attr.toFV?', '| .int n => some (.fin n)', '| .int n => some (.fin (n + 1))', ['C57'], 'integers shifted (retest)'),
 (IO, 'Attr.toFV?', '| .num x => some x', '| .num x => none', ['C57'], 'floats never equal'),
 (RX, 'State.updateHessian', '{ s with hessian := h }', 's', ['C49'], 'update dropped (retest)'),
 (RX, 'acceptState', 's2.updateHessian (env.hessian s2.Bn)', 's2.updateHessian (env.hessian s.Bn)', ['C49'], 'Hessian of the old field'),
 (RX, 'acceptState', 'i % cfg.precondEvery = 0', '(i + 1) % cfg.precondEvery = 0', ['C49'], 'Hessian updated one iteration early'),
 (RX, 'Stepper.env', 'energy B := .fin (T.D.energy B)', 'energy B := .fin (T.D.helicity B)', ['C50'], 'energy trace records helicity (retest)'),
 (RX, 'energy', '0.5 *', '1 *', ['C50'], 'factor one half dropped'),
 (LZ, 'lazyMassV', '(lazyJ F)', '(fun x => 1 / lazyJ F x)', ['C37'], 'inverse Jacobian (retest)'),
 (LZ, 'lazyMassV', '(fun i x => lazyDF F x *ᵥ evalV Λ i x) (fun i x => lazyDF F x *ᵥ evalV Λ i x)', '(evalV Λ) (evalV Λ)', ['C37'], 'push-forward missing'),
 (I, 'jmod', 'm * ⌊x / m⌋', 'm * ⌈x / m⌉', ['C91'], 'ceiling instead of floor'),
 (I, 'jmean', '/ N', '/ (N - 1)', ['C91'], 'wrong divisor'),
 (I, 'phCorrect', '|dd| < π', '|dd| < 2 * π', ['C91'], 'discontinuity threshold doubled'),
 (I, 'phCorrect', 'ddmod - dd', 'ddmod', ['C91'], 'difference not subtracted'),
 (I, 'phCorrect', 'jmod (dd + π) (2 * π) - π', 'jmod dd (2 * π)', ['C91'], 'representative in [0, 2pi)'),
 (I, 'unwrap', 'Finset.range k', 'Finset.range (k - 1)', ['C91'], 'last correction missing'),
 (I, 'toroidalUnwrapped', '/ (2 * π)', '/ π', ['C91'], 'half turns'),
 (I, 'toroidalUnwrapped', 'unwrap phi (N - 1)', 'phi (N - 1)', ['C91'], 'not unwrapped'),
 (I, 'poloidalUnwrapped', '(Z k - Zc) (R k - Rc)', '(R k - Rc) (Z k - Zc)', ['C91'], 'arguments of arctan2 swapped'),
 (I, 'poloidalUnwrapped', '(Z k - Zc)', '(Z k)', ['C91'], 'centre ignored'),
 (I, 'getIota', '|m / n|', '|n / m|', ['C91'], 'safety factor instead of iota'),
 (I, 'getIota', '|m / n|', 'm / n', ['C91'], 'absolute value missing'),
 (I, 'getIota', 'fun k => |c k 0|) (fun k => c k 2) rMean', 'fun k => c k 0) (fun k => c k 2) rMean', ['C91'], 'signed radius used'),
 (I, 'getIota', 'jmean N (fun k => c k 2)', 'jmean N (fun k => c k 1)', ['C91'], 'wrong column in the mean'),
 (I, 'jsign', 'else if x < 0 then -1', 'else if x < 0 then 1', ['C91'], 'sign lost'),
 (I, 'cylSigned', 'arctan2 (x 1) (x 0), x 2', 'arctan2 (x 0) (x 1), x 2', ['C91'], 'angle from the wrong axis'),
 (I, 'cylSigned', 'sin (1e-16', 'cos (1e-16', ['C91'], 'sign changes at the wrong plane'),
 (I, 'iotaOfTrace', 'cylSigned (P k)', 'P k', ['C91'], 'Cartesian rows'),
 (I, 'crossingCond', '/ π + 1) / 2', '/ π + 1)', ['C91'], 'angle counted twice'),
 (I, 'crossingCond', '(phi - phiTarget)', '(phi + phiTarget)', ['C91'], 'sign of the target'),
 (I, 'traceField', '(norm3 (jacfwd F y *ᵥ B y))⁻¹ • B y', '(norm3 (B y))⁻¹ • B y', ['C91'], 'normalised in logical space'),
 (I, 'traceField', 'Int.fract (x j)', 'x j', ['C91'], 'not wrapped'),
 (I, 'crossingField', 'min (max (Int.fract (x 0)) lo) 1', 'max (Int.fract (x 0)) lo', ['C91'], 'upper clip missing'),
 (I, 'crossingField', '(norm3 (jacfwd F y *ᵥ B y))⁻¹ • B y', 'B y', ['C91'], 'not normalised'),
 (I, 'plotField', '(norm + 1e-9)⁻¹', '(norm + 1e-6)⁻¹', ['C91'], 'other regularisation'),
 (I, 'plotField', 'min (max (p 0) 1e-6) 1', 'max (p 0) 1e-6', ['C91'], 'upper clip missing'),
 (I, 'cylPoint', '√ ((F p) 0 ^ 2 + (F p) 1 ^ 2)', '((F p) 0 ^ 2 + (F p) 1 ^ 2)', ['C91'], 'root missing'),
 (I, 'cylPoint', 'arctan2 ((F p) 1) ((F p) 0)', 'arctan2 ((F p) 0) ((F p) 1)', ['C91'], 'arguments swapped'),
 (SP, 'solveDomain', '(arcsin c.delta) 1.0', 'c.delta 1.0', ['C92'], 'arcsin missing'),
 (SP, 'solveDomain', '"helix" then', '"tokamak " then', ['C92'], 'helix not recognised'),
 (SP, 'plotDomain', 'c.R0', '1.0', ['C92'], 'major radius ignored as in the run (C92_major_radius is then false)'),
 (SP, 'plotLabel', 'i * saveEvery', '(i + 1) * saveEvery', ['C92'], 'labels shifted'),
 (SP, 'drawsPoincare', 'if inActions then true else false', 'true', ['C92'], 'inner guard removed (C92_poincare_never_drawn is then false)'),
 (SP, 'seedRows', 'linspace 0.05 0.95 n', 'linspace 0 1 n', ['C92'], 'radii from 0 to 1'),
 (SP, 'seed', 'reshape3 (seedRows (nLoop * nBatch)) nLoop 3 b l c', 'reshape3 (seedRows (nLoop * nBatch)) nBatch 3 b l c', ['C92'], 'wrong inner size'),
]
