G = 'Model.GvecScripts'
MUTATIONS = [
 (G, 'ravel', 'a (n / eq.theta.length) (n % eq.theta.length)', 'a (n % eq.theta.length) (n / eq.theta.length)', ['C116'], 'grid raveled in the other order'),
 (G, 'ravel', 'a (n / eq.theta.length) (n % eq.theta.length)', 'a (n / eq.rho.length) (n % eq.rho.length)', ['C116'], 'strides of the wrong axis'),
 (G, 'size', 'eq.rho.length * eq.theta.length', 'eq.rho.length * eq.theta.length - 1', ['C116'], 'last grid point left out'),
 (G, 'pts', 'eq.ravel eq.thetastar n / (2 * Real.pi)', 'Int.fract (eq.ravel eq.thetastar n / (2 * Real.pi))', ['C116'], 'angles reduced modulo one turn'),
 (G, 'pts', '(2 * Real.pi), 0]', '(2 * Real.pi), 1]', ['C116'], 'another toroidal coordinate: harmless for a constant direction'),
 (G, 'pts', 'eq.ravel eq.thetastar n / (2 * Real.pi)', 'eq.ravel eq.thetastar n', ['C116'], 'angles not scaled'),
 (G, 'pts', 'eq.rho.getD i 0', 'eq.rho.getD (i + 1) 0', ['C116'], 'radii shifted by one'),
 (G, 'design', 'evaluate (DeRham.fromV3 (eq.pts j)) i 0', 'evaluate (DeRham.fromV3 (eq.pts (j + 1))) i 0', ['C116'], 'rows of the design matrix shifted'),
 (G, 'fit', 'fun j => eq.ravel X j', 'fun j => eq.ravel X (j + 1)', ['C116'], 'right-hand side shifted'),
 (G, 'fit', '(eq.design D) fun', '(2 • eq.design D) fun', ['C116'], 'design matrix scaled'),
 (G, 'target2', 'Real.sin (2 * Real.pi * x 1)', 'Real.sin (2 * Real.pi * x 0)', ['C117'], 'wrong coordinate'),
 (G, 'target2', 'Real.sin (Real.pi * x 0)', 'Real.cos (Real.pi * x 0)', ['C117'], 'function that does not vanish on the boundary'),
 (G, 'target2', 'Real.sin (2 * Real.pi * x 1)', 'Real.sin (Real.pi * x 1)', ['C117'], 'function that is not periodic'),
 (G, 'target3', 'Real.sin (2 * Real.pi * x 2)', 'Real.sin (4 * Real.pi * x 2)', ['C117'], 'twice the toroidal mode'),
 (G, 'target3', '* Real.sin (Real.pi * x 0)', '* Real.cos (Real.pi * x 0)', ['C117'], 'function that does not vanish on the boundary'),
 (G, 'projection', 'D.M0⁻¹ *ᵥ D.projector0 f', 'D.M0 *ᵥ D.projector0 f', ['C117'], 'mass matrix not inverted'),
 (G, 'projection', 'D.M0⁻¹ *ᵥ D.projector0 f', 'D.projector0 f', ['C117'], 'mass matrix forgotten'),
 (G, 'projectionError', 'D.relativeError f fun', 'D.relativeError (2 • f) fun', ['C117'], 'error against another function'),
 (G, 'projectionError', '(projection D f) D.E0', '(2 • projection D f) D.E0', ['C117'], 'twice the projection'),
 (G, 'rates', 'ns.length - 1', 'ns.length', ['C117'], 'one rate too many'),
 (G, 'rates', 'ns.length - 1', 'ns.length - 2', ['C117'], 'last rate missing'),
 (G, 'rates', '-(Real.log', '(Real.log', ['C117'], 'sign of the rates'),
 (G, 'rates', 'errs.getD i 0 / errs.getD (i + 1) 0', 'errs.getD (i + 1) 0 / errs.getD i 0', ['C117'], 'errors swapped'),
 (G, 'rates', 'Real.log (ns.getD i 0 / ns.getD (i + 1) 0)', 'Real.log 2', ['C117'], 'assumes doubled resolutions'),
 (G, 'mean', 'l.sum / l.length', 'l.sum', ['C117'], 'sum instead of mean'),
 (G, 'mean', 'l.sum / l.length', 'l.sum / (l.length + 1)', ['C117'], 'divided by the number of resolutions'),
 (G, 'RatesOk', '(p : ℝ) + 1 ≤', '(p : ℝ) ≤', ['C117'], 'checks the rate p'),
 (G, 'RatesOk', '(p : ℝ) + 1 ≤', '(p : ℝ) + 1 <', ['C117'], 'strict inequality'),
 (G, 'reference', 'errs.getLastD 0', 'errs.headD 0', ['C117'], 'dashed line from the first error'),
 (G, 'reference', '(9 / 10)', '1', ['C117'], 'factor 0.9 forgotten'),
 (G, 'reference', '((p : ℤ) + 1)', '(p : ℤ)', ['C117'], 'slope p'),
 (G, 'reference', 'n / ns.getLastD 0', 'n / ns.headD 0', ['C117'], 'normalised at the first resolution'),
 (G, 'NullCheck', '-(1 / 10 ^ 10) < v', '0 < v', ['C117'], 'zero eigenvalues rejected'),
 (G, 'NullCheck', '|v| < 1 / 10 ^ 10', '1 / 10 ^ 10 < |v|', ['C117'], 'zero check inverted'),
 (G, 'NullCheck', '1 / 10 ^ 6 < |v|', '1 / 10 ^ 10 < |v|', ['C117'], 'another tolerance'),
 (G, 'NullCheck', 'vals.head?', 'vals.getLast?', ['C117'], 'largest eigenvalue checked'),
 (G, 'expectedNulls', '[false, false, true, true]', '[false, true, true, true]', ['C117'], 'wrong expectation for dd1'),
 (G, 'expectedNulls', '[false, false, true, true]', '[true, true, false, false]', ['C117'], 'expectations of the other boundary conditions'),
 (G, 'expectedNulls', '[false, false, true, true]', '[false, false, true]', ['C117'], 'last spectrum not checked: harmless in exact arithmetic, its check always passes'),
 (G, 'SpectraOk', '∀ e ∈ eigs.zip expectedNulls', '∃ e ∈ eigs.zip expectedNulls', ['C117'], 'one check is enough'),
 (G, 'maxAbs', '|A ij.1 ij.2|', '(1 + |A ij.1 ij.2|)', ['C117'], 'offset'),
 (G, 'exactness', 'D.strongCurl * D.strongGrad', 'D.strongCurl * D.strongGrad + D.strongCurl * D.strongGrad', ['C117'], 'harmless: twice zero'),
 (G, 'exactness', 'D.strongDiv * D.strongCurl', 'D.strongDiv', ['C117'], 'curl forgotten'),
 (G, 'linspace', '(n - 1 : Nat)', '(n : Nat)', ['C117'], 'end point left out'),
 (G, 'evalMap', '(X1h ![rho, Int.fract (t / (2 * Real.pi)), zeta] 0', '(X1h ![rho, t / (2 * Real.pi), zeta] 0', ['C117'], 'angle not reduced'),
 (G, 'evalMap', '(X1h ![rho, Int.fract (t / (2 * Real.pi)), zeta] 0', '(X2h ![rho, Int.fract (t / (2 * Real.pi)), zeta] 0', ['C117'], 'coordinates confused'),
 (G, 'evalMapTheta', '(linspace 1 80)', '(linspace 1 81)', ['C117'], 'number of points'),
 (G, 'evalMapTheta', '![r, theta, zeta] 0, X2h ![r, theta, zeta]', '![r, theta, zeta] 0, X2h ![theta, r, zeta]', ['C117'], 'arguments swapped'),
 (G, 'blackCurves', '(linspace (2 * Real.pi) 180)', '(linspace Real.pi 180)', ['C117'], 'half a turn'),
 (G, 'blackCurves', '(linspace 1 nrho)', '(linspace 1 (nrho + 1))', ['C117'], 'one curve too many'),
 (G, 'redLines', '(k : ℝ) / ntheta', '(k : ℝ) / (ntheta - 1)', ['C117'], 'end point included'),
 (G, 'titleAxis', 'X1h X2h 0 [0]', 'X1h X2h 1 [0]', ['C117'], 'a boundary point instead of the axis'),
]
