# (module, definition, old, new, [claims broken], description)
R, G, SC, MF, A, S, X, P, FL = ('Model.Relaxation', 'Model.Gvec', 'Model.Scan', 'Model.Manufactured', 'Model.Assembly', 'Model.Sequence', 'Model.Extraction',
  'Model.Projectors', 'Model.Float')
MUTATIONS = [
 (R, 'deltaB', 'D.P2x1to1 u (D.P12 *ᵥ B)', 'D.P2x1to1 u (D.weakCurl *ᵥ B)', ['C53'], 'rerun: delta B with J'),
 (R, 'uxJ', 'D.P2x1to1 u (D.weakCurl *ᵥ B)', 'D.P2x1to1 u (D.P12 *ᵥ B)', ['C53'], 'rerun: u x H'),
 # GVEC
 (G, 'ravel', 'a (n / eq.zeta.length / eq.theta.length) (n / eq.zeta.length % eq.theta.length) (n % eq.zeta.length)', 'a (n % eq.zeta.length) (n / eq.zeta.length % eq.theta.length) (n / eq.zeta.length / eq.theta.length)', ['C81'], 'Fortran order'),
 (G, 'mesh', 'fun _ j _ => eq.theta.getD j 0', 'fun j _ _ => eq.theta.getD j 0', ['C81'], 'meshgrid without indexing=ij'),
 (G, 'mapCoefficients', 'fun j => eq.ravel X j', 'fun j => eq.ravel X (j + 1)', ['C81'], 'data shifted'),
 (G, 'interpolateMap', 'eq.mapCoefficients nfp lstsq D eq.X2', 'eq.mapCoefficients nfp lstsq D eq.X1', ['C81'], 'X2 fitted to X1'),
 (G, 'validIdx', 'fun n => gvecValid tol (eq.pts nfp n)', 'fun n => !gvecValid tol (eq.pts nfp n)', ['C81'], 'invalid points kept'),
 (G, 'phys2Basis', '/ (jacfwd Phi x).det', '* (jacfwd Phi x).det', ['C81'], 'Piola transform inverted'),
 (G, 'fieldTensor', 'D.E2 i l * phys2Basis', 'D.E2 i l * D.E2 i l * phys2Basis', ['C81'], 'E2 applied twice'),
 (G, 'fieldMatrix', '(r / 3) (Fin.ofNat 3 r)', '(r / 3) (Fin.ofNat 3 (r + 1))', ['C81'], 'components rotated'),
 (G, 'fieldData', '(r / 3) 0) (Fin.ofNat 3 r)', '(r / 3) 0) 0', ['C81'], 'first component only'),
 # scans
 (SC, 'scan', '(f c x).2 :: (scan f (f c x).1 xs).2)', '(f c x).2 :: (scan f c xs).2)', ['C83'], 'carry not threaded in outputs (equivalent for unit carries)'),
 (SC, 'scan', '((scan f (f c x).1 xs).1,', '((scan f c xs).1,', ['C83'], 'carry not threaded'),
 (SC, 'einsum3', 'at2 A j k * W j k m * at2 B j m', 'at2 A j k * W j m k * at2 B j m', ['C83'], 'weights transposed'),
 (SC, 'assembleBody', 'einsum3 nq d (getJk g1 i nq d) W (getJk g2 m nq d)', 'einsum3 nq d (getJk g2 i nq d) W (getJk g1 m nq d)', ['C83'], 'getters swapped'),
 (SC, 'assemble', '(List.range n1)).2', '(List.range n2)).2', ['C83'], 'scan over n2'),
 (SC, 'evaluateAtXq', '(zerosLike (getJk g 0 nq d))', '(getJk g 0 nq d)', ['C83'], 'carry starts at the first basis function'),
 (SC, 'evaluateBody', '(v.getD i 0)', '(v.getD (i + 1) 0)', ['C83'], 'coefficients shifted'),
 (SC, 'integrateAgainst', '(List.range n)).2', '(List.range (n + 1))).2', ['C83'], 'one entry too many'),
 # manufactured
 (MF, 'polarU', '(3 * log (x 0) - 2) / 27', '(3 * log (x 0) - 1) / 27', ['C84'], 'constant'),
 (MF, 'polarF', '-1 * x 0 * log (x 0)', 'x 0 * log (x 0)', ['C84'], 'sign of f'),
 (MF, 'mixedU', '+ 1 / 48)', '- 1 / 48)', ['C84'], 'documented sign'),
 (MF, 'mixedF', '(x 0 - 3 / 4) * x 0', '(x 0 - 3 / 4)', ['C84'], 'factor r dropped'),
 (MF, 'toroidF', '+ (r ^ 2 - r ^ 4) / R ^ 2', '+ (r ^ 2 - r ^ 4) / R', ['C84'], 'metric factor'),
 (MF, 'toroidF2', '- 1 / (a * R) * (r / 2 - r ^ 3)', '+ 1 / (a * R) * (r / 2 - r ^ 3)', ['C84'], 'sign'),
 (MF, 'cylinderF', '(3 - 16 * x 0 + 15 * x 0 ^ 2)', '(4 - 18 * x 0 + 16 * x 0 ^ 2)', ['C84'], 'Cartesian right-hand side (this repairs the Cartesian reading and breaks the azimuthal one)'),
 (MF, 'solovevB', '+ y 2 ^ 2)', '+ y 2)', ['C85'], 'z instead of z^2'),
 (MF, 'solovevB', 'let Bphi := tau / R', 'let Bphi := tau * R', ['C85'], 'toroidal field (still divergence-free, no equilibrium)'),
 (MF, 'solovevB', 'BR * cos phi - Bphi * sin phi', 'BR * cos phi + Bphi * sin phi', ['C85'], 'rotation'),
 (MF, 'hopfB', '(1 + rsq) ^ 3', '(1 + rsq) ^ 2', ['C85'], 'exponent'),
 (MF, 'hopfB', 'y 2 ^ 2 - 1)', 'y 2 ^ 2 + 1)', ['C85'], 'sign'),
 # leftovers: assembly
 (A, 'assemble', 'g1 a j k * W j k m * g2 b j m', 'g1 a j k * W j m k * g2 b j m', ['C83'], 'weights transposed'),
 (A, 'solve', 'A⁻¹ * B', 'A⁻¹ᵀ * B', ['C32'], 'transposed solve (equivalent for the symmetric mass matrices; C34 must still hold)'),
 (A, 'W0', 'D.g.J j * D.w j', 'D.w j', ['C31'], 'Jacobian dropped'),
 (A, 'W3', '1 / D.g.J j * D.w j', 'D.g.J j * D.w j', ['C31'], 'Jacobian not inverted'),
 (A, 'M2', 'D.W2', 'D.W1', ['C31'], 'metric of 1-forms'),
 (A, 'strongGrad', 'solve D.M1 D.D0', 'solve D.M1 (-D.D0)', ['C32'], 'sign'),
 (A, 'D1', 'D.S.getLambda2 D.S.getDLambda1 D.nq 3 D.W2', 'D.S.getLambda2 D.S.getDLambda1 D.nq 3 D.W1', ['C32'], 'metric'),
 (A, 'D2', 'D.W3', 'D.W0', ['C32'], 'metric'),
 (A, 'M12', 'D.w j • (1 : M33)', '(D.w j * D.g.J j) • (1 : M33)', ['C36', 'C32', 'C47'], 'extra Jacobian'),
 # sequence
 (S, 'lamT', 'S.Q.xy.getD j 0', 'S.Q.xx.getD j 0', ['C19'], 'radial points'),
 (S, 'getLambda0', 'S.lamT.get a.2.1 q.2.1', 'S.lamT.get a.2.1 q.2.2', ['C19'], 'z index of the point'),
 (S, 'getLambda1', 'S.lamR.get a.1 q.1 * S.dlamT.get a.2.1 q.2.1 * S.lamZ', 'S.dlamR.get a.1 q.1 * S.lamT.get a.2.1 q.2.1 * S.lamZ', ['C19'], 'component 1 as component 0'),
 # extraction
 (X, 'rowDims', 'nz := getDim B.Λ.nz B.types.2.2', 'nz := getDim B.Λ.nz B.types.2.1', ['C26'], 'type of the wrong axis'),
 (X, 'Xi.get', '(min j (x.nt - 1))', '(min j x.nt)', ['C28'], 'no clamp (equivalent when indices are in range)'),
 (X, 'unravelIndex2', '(j / b % a, j % b)', '(j % a, j / a)', ['C28', 'C30'], 'Fortran order'),
 (X, 'ringSize', '* t + 2) * z', '* t + 3) * z', ['C29', 'C30'], 'ring size'),
 (X, 'n3', 'P.discSize P.Λ.nt P.Λ.dz', 'P.discSize P.Λ.dt P.Λ.dz', ['C29', 'C30'], 'dt for nt'),
 (X, 'innerZeroform', '(if a.1 < 2 then 1 else 0)', '(if a.1 < 1 then 1 else 0)', ['C28', 'C30'], 'first ring dropped'),
 # projectors
 (P, 'projector1', 'D.E1 *ᵥ D.oneformProjection v', '-(D.E1 *ᵥ D.oneformProjection v)', ['C36'], 'sign'),
 (P, 'projector3', 'D.E3 *ᵥ D.threeformProjection f', 'D.E3 *ᵥ D.threeformProjection (fun x k => f x k + 1)', ['C36'], 'offset'),
 # floats
 (FL, 'lt', '| negInf, _ => True\n  | fin _, negInf => False\n  | fin _, posInf => True', '| negInf, _ => False\n  | fin _, negInf => False\n  | fin _, posInf => True', ['C40', 'C41', 'C48'], '-inf < x false'),
 (FL, 'lt', '| nan, _ => False\n  | _, nan => False\n  | posInf, _ => False\n', '| nan, _ => True\n  | _, nan => False\n  | posInf, _ => False\n', ['C40', 'C41', 'C48'], 'NaN < x true'),
 (FL, 'add', '| posInf, negInf => nan', '| posInf, negInf => posInf', ['C40', 'C42'], 'inf - inf'),
 (FL, 'clip01', '| nan => nan', '| nan => fin 0', ['C42', 'C82'], 'NaN clipped'),
]
