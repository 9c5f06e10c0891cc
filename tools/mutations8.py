# (module, definition, old, new, [claims broken], description)
A, X, F, G, V, IO, LZ, LC, LO, MF, O, PL, PR, RX, SC, SQ, S, J, D, FL, Q = ('Model.Assembly', 'Model.Extraction', 'Model.Forms', 'Model.Geometry', 'Model.Gvec', 'Model.IO', 'Model.LazyMatrices',
  'Model.Lifecycle', 'Model.Loop', 'Model.Manufactured', 'Model.Objects', 'Model.Plotting', 'Model.Projectors', 'Model.Relaxation', 'Model.Scan', 'Model.Sequence', 'Model.SplineBases', 'Jax', 'Model.Drum', 'Model.Float', 'Model.Quadrature')
MUTATIONS = [
 (D, 'generalizedEigh', '(r.1, Linvᵀ * r.2)', '(r.1, Linv * r.2)', ['C90'], 'eigenvectors transformed with the wrong factor'),
 (D, 'generalizedEigh', 'Linv * A * Linvᵀ', 'Linvᵀ * A * Linv', ['C90'], 'factors swapped'),
 (D, 'generalizedEigh', 'chol (B + (1e-12 : ℝ) • 1)', 'chol (B + (1e-6 : ℝ) • 1)', ['C90'], 'larger regularisation'),
 (D, 'generalizedEigh', 'chol (B + (1e-12 : ℝ) • 1)', 'chol (A + (1e-12 : ℝ) • 1)', ['C90'], 'factor of the wrong matrix'),
 (D, 'drumK', 'g.Ginv j k l * g.J j * D.w j', 'g.Ginv j k l * D.w j', ['C90'], 'Jacobian missing in the stiffness matrix'),
 (D, 'drumK', 'g.Ginv j k l * g.J j * D.w j', 'g.G j k l * g.J j * D.w j', ['C90'], 'metric instead of its inverse'),
 (D, 'drumM', 'g.J j * D.w j', 'D.w j', ['C90'], 'Jacobian missing in the mass matrix'),
 (D, 'drumM', 'Metric.ofMap F (D.S.Q.x.map toV3)', 'D.g', ['C90'], 'metric of the default map'),
 (D, 'drumRadius', '(χ, 0, 0)', '(0, χ, 0)', ['C90'], 'angle passed in the wrong slot'),
 (D, 'getEvs', 'generalizedEigh chol eigh (drumK D F) (drumM D F)', 'generalizedEigh chol eigh (drumM D F) (drumK D F)', ['C90'], 'arguments swapped'),
 (D, 'fitEvs', '(evs k - target k) ^ 2 / target k ^ 2', '(evs k - target k) / target k', ['C90'], 'square missing'),
 (D, 'fitEvs', 'k.1 < kMax', 'k.1 + 1 < kMax', ['C90'], 'one eigenvalue too few'),
 (MF, 'toroidU', '(x 0 ^ 2 - x 0 ^ 4)', '(x 0 ^ 2 - x 0 ^ 3)', ['C84'], 'wrong power'),
 (MF, 'cylinderU', '(1 - x 0) ^ 2', '(1 - x 0)', ['C84'], 'wrong power'),
 (MF, 'iterTau', '(kappa + 1)', '(kappa + 2)', ['C85'], 'wrong constant'),
 (V, 'size', 'eq.rho.length * eq.theta.length * eq.zeta.length', 'eq.rho.length * eq.theta.length', ['C81'], 'toroidal points dropped'),
 (V, 'pts', '(eq.ravel eq.mesh.1 n) (eq.ravel eq.mesh.2.1 n)', '(eq.ravel eq.mesh.2.1 n) (eq.ravel eq.mesh.1 n)', ['C81'], 'rho and theta swapped'),
 (V, 'mapMatrix', '(eq.pts nfp j)) i 0', '(eq.pts nfp i)) j 0', ['C81'], 'transposed'),
 (V, 'interpolateB', '(eq.fieldData nfp tol)', '(eq.fieldData nfp 0)', ['C81'], 'mask of the data differs'),
 (PL, 'reshape2', 'l[i * n2 + j]?', 'l[j * n2 + i]?', ['C65', 'C72'], 'Fortran order'),
 (PL, 'reshape3', '(i * n2 + j) * n3 + k', '(i * n3 + j) * n2 + k', ['C65', 'C72'], 'strides swapped'),
 (PL, 'vnorm', '√ (v ⬝ᵥ v)', 'v ⬝ᵥ v', ['C66'], 'norm squared'),
 (LC, 'needTables', 'if a.tables then f a else none', 'f a', ['C80'], 'tables not required'),
 (LC, 'runStmts', '| none => (a, true)', '| none => runStmts rest a', ['C80'], 'exception swallowed'),
 (LC, 'runCalls', "| (a', true) => (a', true)", "| (a', true) => runCalls rest a'", ['C80'], 'exception swallowed between calls'),
 (LC, 'runHistory', '(c.run pinv a).1', 'if (c.run pinv a).2 then a else (c.run pinv a).1', ['C80'], 'failed call rolls back'),
 (IO, 'PyDict.update', 'new.foldl (fun d e => d.set e.1 e.2) d', 'd.foldl (fun d e => d.set e.1 e.2) new', ['C56'], 'old entries win'),
 (IO, 'asciiDigit', '48 + d', '49 + d', ['C55'], 'digits shifted'),
 (IO, 'ArgVal.truthy', '| .int n => n != 0', '| .int n => n == 0', ['C57', 'C58'], 'truth value of integers inverted'),
 (IO, 'Attr.toFV?', '| .int n => some (.fin n)', '| .int n => some (.fin (n + 1))', ['C58', 'C59'], 'integers shifted'),
 (O, 'Val.asFV', '| _ => .nan', '| _ => .fin 0', ['C54'], 'missing values read as zero'),
 (O, 'Mem.newState', 'Function.update m.states m.nextState s, nextState := m.nextState + 1', 'Function.update m.states m.nextState s, nextState := m.nextState', ['C52', 'C54'], 'new objects share an address'),
 (O, 'pyAfter', 'pyIteration cfg env start d (k + 1)', 'pyIteration cfg env start d k', ['C52', 'C54'], 'iteration counter off by one'),
 (RX, 'State.updateHessian', '{ s with hessian := h }', 's', ['C51', 'C53'], 'update dropped'),
 (RX, 'State.updateBn', '{ s with Bn := B }', '{ s with Bn := B, Bguess := B }', ['C48', 'C50'], 'guess overwritten as well'),
 (RX, 'step', '(maxit.toNat + 1)).getD s', '(maxit.toNat)).getD s', ['C48', 'C50'], 'not enough fuel'),
 (RX, 'FV.isfinite', '| .fin _ => True\n  | _ => False', '| .nan => False\n  | _ => True', ['C50', 'C51'], 'infinities accepted'),
 (RX, 'relaxAfter', 'relaxIteration cfg env start (k + 1)', 'relaxIteration cfg env start k', ['C50', 'C51', 'C52'], 'iteration counter off by one'),
 (RX, 'crossVec', 'D.crossProductOf n m k w u', 'D.crossProductOf n m k w w', ['C46', 'C47', 'C49'], 'wrong operand', ) if False else
 (RX, 'Stepper.env', 'energy B := .fin (T.D.energy B)', 'energy B := .fin (T.D.helicity B)', ['C49', 'C50'], 'energy trace records helicity'),
 (RX, 'Stepper.env', 'divergence B := .fin (T.D.divergenceNorm B)', 'divergence B := .fin 0', ['C49', 'C50'], 'divergence trace always zero'),
 (PR, 'x', 'toV3 (D.S.Q.x.getD j 0)', 'toV3 (D.S.Q.x.getD (j + 1) 0)', ['C36'], 'next quadrature point'),
 (PR, 'zeroformProjection', 'D.w j * D.g.J j', 'D.w j', ['C36'], 'Jacobian missing'),
 (PR, 'projector0', 'D.E0 *ᵥ D.zeroformProjection f', '(2 : ℝ) • D.E0 *ᵥ D.zeroformProjection f', ['C36'], 'factor two'),
 (PR, 'projector2', 'D.E2 *ᵥ D.twoformProjection v', '-(D.E2 *ᵥ D.twoformProjection v)', ['C36'], 'sign'),
 (PR, 'Deg.ofInt?', 'else if n = 2 then .ok .two', 'else if n = 3 then .ok .two', ['C39'], 'degree 3 accepted as 2'),
 (PR, 'einsumT', 'A k l * v k', 'A l k * v k', ['C38', 'C39'], 'transposed'),
 (PR, 'fieldAt', '((D.E a)ᵀ *ᵥ w) j k', '((D.E a)ᵀ *ᵥ w) k j', ['C38', 'C39'], 'point and component swapped'),
 (SC, 'getJk', 'g i j k', 'g i k j', ['C83'], 'axes swapped'),
 (SC, 'at2', '(A.getD j []).getD k 0', '(A.getD k []).getD j 0', ['C83'], 'transposed access'),
 (SC, 'addScaled', 'r + l * v', 'r + l', ['C83'], 'coefficient dropped'),
 (SC, 'zerosLike', 'fun _ => 0', 'fun x => x', ['C83'], 'carry starts at the first block'),
 (SC, 'sumMul', '(List.zipWith (· * ·) a b).sum', '(List.zipWith (· + ·) a b).sum', ['C83'], 'sum instead of product'),
 (SC, 'integrateBody', 'sumMul (getJk g i nq d) w', 'sumMul (getJk g 0 nq d) w', ['C83'], 'always the first function'),
 (LZ, 'coordOf', '| 1 => x.2.1', '| 1 => x.2.2', ['C37'], 'wrong coordinate'),
 (LZ, 'jacfwdForm', '(coordOf x j)', '(coordOf x 0)', ['C37'], 'derivative at the wrong place'),
 (LZ, 'lazyMass0', '(lazyJ F)', '(fun x => 1 / lazyJ F x)', ['C37'], 'inverse Jacobian'),
 (LZ, 'lazyMass3', '1 / lazyJ F x', 'lazyJ F x', ['C37'], 'Jacobian not inverted'),
 (LZ, 'lazyMassV', '(lazyJ F)', '(fun x => 1 / lazyJ F x)', ['C37'], 'inverse Jacobian'),
 (LZ, 'lazyDF', 'jacfwd F (toV3 x)', '(jacfwd F (toV3 x))ᵀ', ['C37'], 'transposed'),
 (G, 'grad', 'jacfwd F x 0 j', '-jacfwd F x 0 j', ['C22', 'C24'], 'sign of the gradient'),
 (A, 'ofBoundary', 'E3 := (BoundaryOp.mk S.L3.dims (bcTypes dirichlet)).matrix', 'E3 := 2 • (BoundaryOp.mk S.L3.dims (bcTypes dirichlet)).matrix', ['C27', 'C26'], 'scaled extraction'),
 (A, 'ofBoundary', 'E0 := (BoundaryOp.mk S.L0.dims (bcTypes dirichlet)).matrix', 'E0 := -(BoundaryOp.mk S.L0.dims (bcTypes dirichlet)).matrix', ['C27', 'C26'], 'sign of the extraction'),
 (A, 'mk?', 'if polar then ofPolar', 'if !polar then ofPolar', ['C29', 'C33'], 'polar flag inverted'),
 (A, 'M1', 'D.W1', 'D.W2', ['C31'], 'weight of 2-forms'),
 (A, 'M3', 'D.W3', 'D.W0', ['C31'], 'weight of 0-forms'),
 (A, 'strongCurl', 'solve D.M2 D.D1', 'solve D.M2 (-D.D1)', ['C76', 'C33'], 'sign'),
 (A, 'strongDiv', 'solve D.M3 D.D2', 'D.D2', ['C76'], 'mass not inverted'),
 (A, 'P12', 'solve D.M1 D.M12', 'solve D.M1 (2 • D.M12)', ['C37', 'C74'], 'factor two'),
 (Q, 'gauss4Nodes', '3399810435848563/10000000000000000,\n   8611', '3399810435848573/10000000000000000,\n   8611', ['C12'], 'digit error in a node'),
 (Q, 'gauss6Weights', None, None, ['C12'], 'skipped') if False else
 (Q, 'gauss2Nodes', '5773502691896258/10000000000000000]', '5773502691896358/10000000000000000]', ['C12'], 'digit error in a node'),
 (S, 'shape', 'b.bases.map Basis1.n', 'b.bases.reverse.map Basis1.n', ['C10', 'C16'], 'reversed'),
 (F, 'validDegree', 'k = 3 ∨ k = -1', 'k = 3', ['C19', 'C16'], 'vector fields rejected'),
 (F, 'shape', '(d.nr, d.dt, d.dz), (d.dr, d.nt, d.dz)', '(d.nr, d.dt, d.dz), (d.dr, d.nt, d.nz)', ['C16', 'C18'], 'wrong size of a component'),
 (SQ, 'lamZ', 'S.L0.Λ2.evaluate (S.Q.xz.getD j 0) i', 'S.L0.Λ2.evaluate (S.Q.xx.getD j 0) i', ['C18'], 'wrong points'),
 (SQ, 'dlamT', 'S.L0.dΛ1.evaluate', 'S.L0.dΛ0.evaluate', ['C18', 'C19'], 'wrong basis'),
 (SQ, 'diffZ', 'S.dlamZ.get (nt - 1) j3', '0', ['C20', 'C76'], 'no wrap-around'),
 (X, 'vectorIndex', 'if P.n1 + P.n2 ≤ idx then 1 else 0),', 'if P.n1 + P.n2 < idx then 1 else 0),', ['C28', 'C29'], 'boundary of the third block'),
 (X, 'n2', 'P.ringSize P.Λ.dt P.Λ.nz', 'P.ringSize P.Λ.nt P.Λ.nz + 1', ['C28', 'C29'], 'one row too many'),
]
