# (module, definition, old, new, [claims broken], description)
FO, EX, AS, SE, G, J, Q = 'Model.Forms', 'Model.Extraction', 'Model.Assembly', 'Model.Sequence', 'Model.Geometry', 'Jax', 'Model.Quadrature'
MUTATIONS = [
 ('Model.Cavity', 'modeLoop', '| none => .ok []', '| none => .error "ValueError"', ['C94'], 'missing Bessel table raises instead of warning (rerun)'),
 ('Model.Float', 'eq', '| posInf, posInf => True', '| posInf, posInf => False', ['C57'], 'inf == inf is false (rerun)'),
 (SE, 'diffR', '(nt : Int) - 1', '(nt : Int)', ['C20', 'C76'], 'last radial spline keeps its right derivative'),
 (SE, 'diffR', '(nt : Int) - 1', '(S.L0.dims.nr : Int) - 1', ['C20', 'C76'], 'the repaired code: the exact domain is no longer the stated one'),
 (SE, 'diffR', 'drM1 - dr', 'dr - drM1', ['C20'], 'sign of the radial derivative'),
 (SE, 'diffT', 'S.dlamT.get (nt - 1) j2', '0', ['C20', 'C76'], 'no periodic wrap in theta'),
 (SE, 'diffZ', 'S.dlamZ.get (nt - 1) j3', 'S.dlamZ.get (S.L0.dims.nz - 1) j3', ['C20', 'C76'], 'the repaired code (axial wrap with nz)'),
 (SE, 'diffZ', 'if 0 < i3', 'if 1 < i3', ['C20'], 'wrap one row late'),
 (SE, 'getDLambda0', 'S.lamR.get a.1 q.1 * S.lamT.get a.2.1 q.2.1 * S.diffZ nt a.2.2 q.2.2', 'S.lamR.get a.1 q.1 * S.lamT.get a.2.1 q.2.1 * S.diffZ nt a.2.1 q.2.2', ['C20'], 'poloidal index in the axial derivative'),
 (SE, 'getDLambda1', 'if k = 1 then d1dz else -d1dy', 'if k = 1 then -d1dz else d1dy', ['C20', 'C76'], 'sign of the curl of the radial component'),
 (SE, 'getDLambda1', 'if k = 0 then d3dy else if k = 1 then -d3dx', 'if k = 0 then d3dx else if k = 1 then -d3dy', ['C20'], 'curl components swapped'),
 (SE, 'getDLambda2', 'else S.dlamR.get a.1 q.1 * S.dlamT.get a.2.1 q.2.1 * S.diffZ nt a.2.2 q.2.2', 'else 0', ['C20', 'C76'], 'axial part of the divergence dropped'),
 (SE, 'getLambda2', 'S.lamR.get a.1 q.1 * S.dlamT.get', 'S.dlamR.get a.1 q.1 * S.dlamT.get', ['C19'], 'wrong radial table in the 2-form'),
 (SE, 'getLambda3', 'S.dlamR.get a.1 q.1 * S.dlamT', 'S.dlamR.get a.2.1 q.1 * S.dlamT', ['C19'], 'wrong radial index in the 3-form'),
 (SE, 'Table.get', 'min i (t.rows - 1)', 'min i t.rows', ['C20'], 'clamp one row too late'),
 (SE, 'mk?', 'Quad.Rule.mk? L0.Λ0 L0.Λ1 L0.Λ2 q', 'Quad.Rule.mk? L0.Λ0 L0.Λ1 L0.Λ1 q', ['C14'], 'axial rule built on the poloidal basis'),
 (SE, 'mk?', '⟨L0, L1, L2, L3, Q⟩', '⟨L0, L1, L2, L2, Q⟩', ['C19'], 'two-form space used for three-forms'),
 (SE, 'dlamR', 'S.Q.xx.getD j 0', 'S.Q.xy.getD j 0', ['C19', 'C20'], 'radial splines at the poloidal nodes'),
 (AS, 'nq', 'D.S.Q.w.length', 'D.S.Q.w.length - 1', ['C83'], 'last quadrature point dropped'),
 (AS, 'w', 'D.S.Q.w.getD j 0', 'D.S.Q.w.getD (j + 1) 0', ['C31'], 'weights shifted'),
 ('Model.Cavity', 'collect', '.ok (l ++ r)', '.ok r', ['C94'], 'modes overwritten instead of accumulated'),
 ('Model.Cavity', 'collect', '| .error e :: _ => .error e', '| .error _ :: xs => collect xs', ['C94'], 'errors swallowed'),
 ('Model.DrumTarget', 'targetGetter', 'Λmap.evaluate (Q.x.getD j (0, 0, 0)) a k', 'Λmap.evaluate (Q.x.getD a (0, 0, 0)) j k', ['C95'], 'index and point swapped'),
 ('Model.DrumTarget', 'DrumRun.run', 'List.range numSteps', 'List.range (numSteps - 1)', ['C95'], 'one optimiser step too few'),
 (EX, 'matrix', '(B.element r c : ℝ)', '(B.element c r : ℝ)', ['C26'], 'transposed element'),
 (EX, 'Jax.unravelIndex2', '(j / b % a, j % b)', '(j % b, j / b % a)', ['C28'], 'unravelled in the wrong order'),
 (EX, 'n', 'P.n1 + P.n2 + P.n3', 'P.n1 + P.n2', ['C29'], 'third component not counted'),
 (FO, 'n1', 'else if d.k = 1 then d.dr * d.nt * d.nz', 'else if d.k = 1 then d.nr * d.nt * d.nz', ['C17'], 'first component size'),
 (FO, 'n3', 'd.dr * d.dt * d.nz', 'd.dr * d.nt * d.nz', ['C17'], 'third component size'),
 (FO, 'n', 'd.n1 + d.n2 + d.n3', 'd.n1 + d.n2', ['C17'], 'third component not counted'),
 (FO, 'baseValue', '[x.1, x.2.1, x.2.2]', '[x.1, x.2.2, x.2.1]', ['C19'], 'angles swapped'),
 (G, 'jacobianDeterminant', '(jacfwd F x).det', '|(jacfwd F x).det|', ['C63'], 'absolute value'),
 (G, 'Pushforward.scalar', '/ (jacfwd F x).det', '* (jacfwd F x).det', ['C22'], 'density multiplied'),
 (G, 'Pushforward.scalar', 'if k = 0 then some (f x)', 'if k = 1 then some (f x)', ['C22'], 'wrong degree'),
 (G, 'jacfwd', 'fderiv ℝ F x (Pi.single j 1) i', '-fderiv ℝ F x (Pi.single j 1) i', ['C63', 'C59'], 'sign of the Jacobian'),
 ('Model.LazyMatrices', 'evalS', 'Λ.evaluate x i k', 'Λ.evaluate x k i', ['C37'], 'basis and component index swapped'),
 ('Model.LazyMatrices', 'evalV', 'Λ.evaluate x i k', 'Λ.evaluate x k i', ['C37'], 'basis and component index swapped'),
 ('Model.LazyMatrices', 'lazyJ', 'jacobianDeterminant F (toV3 x)', '|jacobianDeterminant F (toV3 x)|', ['C37'], 'absolute value of the Jacobian'),
 ('Model.Lifecycle', 'Call.run', 'runStmts (c.body pinv) a', 'runStmts (c.body pinv).tail a', ['C80'], 'first statement of a method skipped'),
 ('Model.Loop', 'whileLoop', 'whileLoop cond body fuel (body s)', 'whileLoop cond body fuel (body (body s))', ['C40'], 'two bodies per check'),
 ('Model.Manufactured', 'mixedUDocumented', '1 / 12 * x 0 ^ 3', '1 / 9 * x 0 ^ 3', ['C84'], 'documented solution changed'),
 ('Model.Manufactured', 'toroidU2', 'cos (2 * π * x 2)', 'sin (2 * π * x 2)', ['C84'], 'sine instead of cosine'),
 ('Model.Objects', 'PyLoop.state', 'l.mem.states l.cur', 'l.mem.states 0', ['C54'], 'state 0 always returned'),
 ('Model.Projectors', 'mdim', '| .two => D.m2', '| .two => D.m1', ['C38'], 'size of the 2-form space'),
 ('Model.Projectors', 'getter', '| .two => D.S.getLambda2', '| .two => D.S.getLambda1', ['C38'], '1-form tables for 2-forms'),
 ('Model.Projectors', 'orZero', '| .error _ => 0', '| .error _ => 1', ['C38'], 'rejected values become one'),
 (Q, 'gauss6Weights', '[', '[0, ', ['C12'], 'extra weight'),
 (Q, 'Rule.mk?', 'Rule.ofRules rx ry rz', 'Rule.ofRules rx rz ry', ['C14'], 'directions permuted'),
 ('Model.Relaxation', 'RelaxEnv.step', 'cfg.solverTol cfg.solverMaxit', 'cfg.solverTol (cfg.solverMaxit + 1)', ['C48'], 'one Picard iteration more'),
 ('Model.Relaxation', 'crossVec', 'D.crossProductOf n m k w u', 'D.crossProductOf n m k (2 • w) u', ['C38'], 'argument scaled'),
 (J, 'get', 'if i < 0 then i + l.length else i', 'i', ['C01'], 'negative index does not wrap'),
 (J, 'linspace01', '((m - 1 : Nat) : K)', '((m : Nat) : K)', ['C01'], 'endpoint excluded'),
 (J, 'isclose', '1 / 10 ^ 8', '1 / 10 ^ 1', ['C01'], 'tolerance far too large: short knot spans are skipped'),
 (J, 'unravelIndex3', '(j / c / b % a, j / c % b, j % c)', '(j / c / a % b, j / c % a, j % c)', ['C17'], 'unravelled with the wrong radix'),
 ('Model.IO', 'PyDict.mem', '(d.get? k).isSome', '(d.get? k).isNone', ['C56'], 'membership negated'),
]
