# (module, definition, old, new, [claims broken], description)
P, C, T, F, G, J, Q, SB = 'Model.Perturbation', 'Model.Cavity', 'Model.DrumTarget', 'Model.Float', 'Model.Geometry', 'Jax', 'Model.Quadrature', 'Model.SplineBases'
FO, EX, AS, SE = 'Model.Forms', 'Model.Extraction', 'Model.Assembly', 'Model.Sequence'
MUTATIONS = [
 (P, 'islandPert', '2 * width ^ 2', 'width ^ 2', ['C93'], 'Gaussian without the factor two'),
 (P, 'islandPert', 'p 1 * pol', 'p 1 * tor', ['C93'], 'mode numbers mixed up'),
 (P, 'islandPert', 'jacfwd F p i 0', 'jacfwd F p i 1', ['C93'], 'poloidal instead of radial direction'),
 (P, 'islandPert', 'jacfwd F p i 0', 'jacfwd F p 0 i', ['C93'], 'row instead of column of the Jacobian'),
 (P, 'islandPert', 'sin (2 * π * p 2 * tor)', 'cos (2 * π * p 2 * tor)', ['C93'], 'cosine in the toroidal angle'),
 (C, 'cavityQ', 'D.doubleCurl D.D0 D.D0ᵀ 0', 'D.doubleCurl D.D0 D.D0ᵀ D.M0', ['C94'], 'mass matrix in the multiplier block'),
 (C, 'cavityQ', 'D.doubleCurl D.D0', '(D.M1 * D.dd1) D.D0', ['C94'], 'Hodge Laplacian instead of double curl'),
 (C, 'cavityP', 'D.M1 0 0 0', '1 0 0 0', ['C94'], 'identity instead of mass matrix'),
 (C, 'cavityP', 'D.M1 0 0 0', 'D.M1 0 0 D.M0', ['C94'], 'multiplier has a mass'),
 (C, 'pyGet', '(i + xs.length).toNat', 'i.toNat', ['C94'], 'negative index does not wrap'),
 (C, 'modeEigenvalue', '2 * k * Real.pi', 'k * Real.pi', ['C94'], 'Dirichlet instead of periodic in z'),
 (C, 'modeEigenvalue', '(root / a) ^ 2', 'root ^ 2 / a', ['C94'], 'radius not squared'),
 (C, 'multiplicity', '(if k = 0 then 1 else 2)', '1', ['C94'], 'axial multiplicity forgotten'),
 (C, 'multiplicity', '(if n = 0 then 1 else 2)', '2', ['C94'], 'axisymmetric modes counted twice'),
 (C, 'radialEntries', 'pyGet zeros (m - 1)', 'pyGet zeros m', ['C94'], 'roots off by one'),
 (C, 'radialEntries', 'm - 1 < zeros.length', 'm < zeros.length', ['C94'], 'last root skipped'),
 (C, 'modeLoop', '| none => .ok []', '| none => .error "ValueError"', ['C94'], 'warning turned into an exception'),
 (C, 'eigenvalueTable', 'te ++ tm', 'te ++ te', ['C94'], 'TE modes twice'),
 (C, 'eigenvalueTable', 'modeLoop zerosTM a h', 'modeLoop zerosTE a h', ['C94'], 'TM modes from the derivative zeros'),
 (C, 'eigenvalueTable', 'insertionSort (· ≤ ·)', 'insertionSort (· ≥ ·)', ['C94'], 'descending order'),
 (C, 'eigenvalueTable', 'if maxM ≤ 0', 'if maxM < 0', ['C94'], 'm = 0 accepted'),
 (C, 'eigenvalueTable', 'a > 0 ∧ h > 0', 'a > 0 ∨ h > 0', ['C94'], 'only one of radius and period checked'),
 (C, 'dist', '|t - ev| / t', '|t - ev|', ['C94'], 'absolute instead of relative difference'),
 (C, 'dist', '.min?', '.max?', ['C94'], 'farthest eigenvalue'),
 (C, 'checkEigenvalues', 'evs.all', 'evs.any', ['C94'], 'any instead of all'),
 (T, 'ellipseRadius', 'b ^ 2 * cos', 'a ^ 2 * cos', ['C95'], 'axes mixed up'),
 (T, 'ellipseRadius', 'a * b /', 'a /', ['C95'], 'numerator without b'),
 (T, 'targetMass', 'Q.w.getD j 0', '1', ['C95'], 'weights forgotten in the mass matrix'),
 (T, 'targetCoefs', 'radius (Q.x.getD j (0, 0, 0)).1 * Q.w.getD j 0', 'radius (Q.x.getD j (0, 0, 0)).1', ['C95'], 'weights forgotten in the load'),
 (T, 'targetCoefs', '(Q.x.getD j (0, 0, 0)).1', '(Q.x.getD j (0, 0, 0)).2.1', ['C95'], 'radius at the wrong coordinate'),
 (T, 'targetCoefs', '(targetMass Λmap Q)⁻¹ *ᵥ', 'id <|', ['C95'], 'system not solved'),
 (T, 'setupTargetShape', '(3 * pm)', 'pm', ['C95'], 'too few quadrature points'),
 (T, 'DrumRun.step', 'let value := loss s.aHat', 'let value := loss (upd s.aHat s.opt).1', ['C95'], 'loss after the update (repaired program)'),
 (T, 'DrumRun.step', '(i + 1, r.1, losses)', '(i, r.1, losses)', ['C95'], 'file name off by one'),
 (T, 'DrumRun.step', '(i + 1, r.1, losses)', '(i + 1, s.aHat, losses)', ['C95'], 'shape before the update drawn'),
 (T, 'DrumRun.step', '⟨r.1, r.2, losses', '⟨r.1, s.opt, losses', ['C95'], 'optimiser state not kept'),
 (T, 'DrumRun.step', 'if (i + 1) % plotEvery = 0', 'if i % plotEvery = 0', ['C95'], 'plots at the wrong iterations'),
 (T, 'DrumRun.init', '[loss a0], none', '[], none', ['C95'], 'initial loss not recorded'),
 (F, 'gt', 'lt b a', 'lt a b', ['C46', 'C51'], 'comparison reversed'),
 (F, 'le', '| nan, _ => False', '| nan, _ => True', ['C46', 'C89'], 'NaN below everything'),
 (F, 'eq', '| posInf, posInf => True', '| posInf, posInf => False', ['C57'], 'infinities differ'),
 (F, 'isnan', '| nan => True', '| nan => False', ['C89'], 'NaN not recognised'),
 (J, 'dynamicSlice', 'min s.toNat (l.length - size)', 's.toNat', ['C02'], 'start index not clamped'),
 (J, 'ravelMultiIndex3', 'min k (c - 1)', 'k', ['C15'], 'last index not clipped'),
 (Q, 'gauss5Weights', '4786286704993665', '4786286704993666', ['C11'], 'one digit of a weight'),
 (Q, 'gauss3Nodes', '7745966692414834/10000000000000000]', '7745966692414934/10000000000000000]', ['C11'], 'digits transposed in a node'),
 (SB, "evaluate'", 'x ≤ Jax.get', 'x < Jax.get', ['C01'], 'right end excluded'),
 (SE, 'lamR', 'S.L0.Λ0.evaluate', 'S.L0.Λ1.evaluate', ['C19'], 'wrong basis tabulated'),
 (SE, 'dlamZ', 'S.L0.dΛ2.evaluate', 'S.L0.dΛ1.evaluate', ['C19'], 'wrong derivative basis tabulated'),
 (AS, 'toV3', '![x.1, x.2.1, x.2.2]', '![x.1, x.2.2, x.2.1]', ['C31'], 'coordinates swapped'),
]
