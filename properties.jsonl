{"id": "C01", "title": "Clamped B-splines form a partition of unity", "statement": "For SplineBasis(n, p, 'clamped') with n > p, the values s(x, i), i = 0..n-1, sum to exactly 1 at every x in [0,1], including both end points and every knot.", "quantifier": "all n > p >= 0 (knot spacing above jnp.isclose's tolerance), all real x in [0,1]", "why_tests_cant": "A test samples finitely many (n, p, x); knots, end points and coincident knots are measure-zero inputs where the half-open convention and the special case at the last knot matter.", "anchors": ["mrx/spline_bases.py:SplineBasis.__init__", "mrx/spline_bases.py:SplineBasis._init_knots", "mrx/spline_bases.py:SplineBasis.evaluate", "mrx/spline_bases.py:SplineBasis._p_spline"]}
{"id": "C02", "title": "Periodic B-splines form a partition of unity", "statement": "For SplineBasis(n, p, 'periodic') accepted by the constructor, the values s(x, i), i = 0..n-1, sum to exactly 1 at every x in [0,1) and, for p >= 1, also at x = 1.", "quantifier": "all n, p accepted by the constructor with 1 <= p <= n (spacing above tolerance), all real x in [0,1]", "why_tests_cant": "The wrapped contribution s_(n+i) is only active near the seam; tests sample finitely many points and sizes.", "anchors": ["mrx/spline_bases.py:SplineBasis._init_knots", "mrx/spline_bases.py:SplineBasis.evaluate"]}
{"id": "C03", "title": "B-spline values are between 0 and 1", "statement": "Every value s(x, i) of a clamped or periodic SplineBasis is >= 0 and <= 1 for x in [0,1] and a valid index i.", "quantifier": "all n, p accepted, all i < n, all real x in [0,1]", "why_tests_cant": "Sign of a recursively defined piecewise polynomial at all reals cannot be settled by sampling.", "anchors": ["mrx/spline_bases.py:SplineBasis.evaluate", "mrx/spline_bases.py:SplineBasis._p_spline"]}
{"id": "C04", "title": "B-splines have local support", "statement": "A clamped spline s(x, i) vanishes for x outside [T[i], T[i+p+1]], and at any point at most p+1 of the n basis functions are non-zero.", "quantifier": "all n > p, all i < n, all real x", "why_tests_cant": "Sparsity of every assembled matrix relies on it at all points, not at sampled ones.", "anchors": ["mrx/spline_bases.py:SplineBasis._evaluate", "mrx/spline_bases.py:SplineBasis.evaluate"]}
{"id": "C05", "title": "Clamped splines interpolate at the end points", "statement": "For clamped splines with n > p: s(0, i) = 1 if i = 0 and 0 otherwise; s(1, i) = 1 if i = n-1 and 0 otherwise. This is what makes dropping the first/last coefficient a Dirichlet condition.", "quantifier": "all n > p >= 0, all i < n", "why_tests_cant": "All sizes and degrees; at x = 1 the generic recursion gives 0 and only a special case makes it right.", "anchors": ["mrx/spline_bases.py:SplineBasis.evaluate", "mrx/spline_bases.py:SplineBasis._evaluate"]}
{"id": "C06", "title": "Periodic splines agree at both ends of the period", "statement": "For periodic splines with p >= 1: s(0, i) = s(1, i) for every i, so any spline combination is single valued across the seam.", "quantifier": "all n >= p >= 1 accepted by the constructor, all i < n", "why_tests_cant": "The identification of x=0 and x=1 must hold for every size and degree.", "anchors": ["mrx/spline_bases.py:SplineBasis.evaluate", "mrx/spline_bases.py:SplineBasis._init_knots"]}
{"id": "C07", "title": "DerivativeSpline gives the derivative of SplineBasis", "statement": "At every x in (0,1) that is not a knot, the derivative of s(., i) exists and equals d(x, i-1) - d(x, i), where d = DerivativeSpline(s) (terms with index -1 or n-1 dropped for clamped, index taken modulo n for periodic).", "quantifier": "all n > p >= 1 (clamped) and n >= p >= 1 (periodic), all i < n, all non-knot x in (0,1)", "why_tests_cant": "A derivative is a limit statement; finite differences at samples only approximate it.", "anchors": ["mrx/spline_bases.py:DerivativeSpline.__init__", "mrx/spline_bases.py:DerivativeSpline.evaluate"]}
{"id": "C08", "title": "Exactly which end-point values of DerivativeSpline are right", "statement": "For clamped splines of degree p >= 1 the value d(x, i) away from x = 1 is the derivative basis function (a scaled B-spline of degree p-1), and d(1, i) is the left limit of d(x, i) as x -> 1 exactly for the indices i < n-3; the last two basis functions are evaluated wrongly at x = 1 (0 instead of p(n-p), and a positive number instead of 0).", "quantifier": "all n > p >= 1, all i < n-1", "why_tests_cant": "Concerns one exact real input and all sizes; autodiff/quadrature tests never evaluate at x = 1.", "anchors": ["mrx/spline_bases.py:DerivativeSpline.evaluate", "mrx/spline_bases.py:SplineBasis.evaluate"]}
{"id": "C09", "title": "SplineBasis accepts exactly the documented parameters", "statement": "SplineBasis(n, p, type) raises ValueError iff type is not one of clamped/periodic/constant/fourier, or p >= n and p != 1; otherwise it succeeds and the knot vector has n+p+1 (clamped), n+2p+1 (periodic), 2 (constant) or n+1 (fourier) entries; constant and fourier bases evaluate to 1.", "quantifier": "all natural n >= 1, p and all type strings", "why_tests_cant": "Acceptance must be right for all parameter values.", "anchors": ["mrx/spline_bases.py:SplineBasis.__init__", "mrx/spline_bases.py:SplineBasis._init_knots"]}
{"id": "C10", "title": "Tensor-product bases are products and inherit partition of unity", "statement": "TensorBasis(bases) raises iff len(bases) != 3; basis function (i*n2+j)*n3+k evaluates to the product of the 1-D functions i, j, k; every valid index is such a triple exactly once; the tensor basis sums to 1 wherever the three 1-D bases do.", "quantifier": "all triples of bases, all points, all indices", "why_tests_cant": "Index arithmetic for all sizes.", "anchors": ["mrx/spline_bases.py:TensorBasis"]}
{"id": "C11", "title": "Composite quadrature has interior points and positive weights", "statement": "composite_quad(s, k) returns k points per knot element, each strictly inside its element, with strictly positive weights; the weights of one element sum to its length and all weights sum to T[-1]-T[0] of the element range, i.e. 1.", "quantifier": "all clamped/periodic bases with p >= 1, all supported rule orders 1..10", "why_tests_cant": "All knot vectors; sums over all elements.", "anchors": ["mrx/quadrature.py:composite_quad", "mrx/quadrature.py:nodes_and_weights"]}
{"id": "C12", "title": "Gauss tables integrate polynomials of degree <= 2k-1", "statement": "On every element the k-point rule integrates every polynomial of degree <= 2k-1 with relative error below 1e-13 of its coefficient size (the tables are rounded decimals), hence so does the composite rule.", "quantifier": "k = 1..10 (the whole table), all polynomials of degree <= 2k-1, all elements", "why_tests_cant": "All polynomials and all intervals, not a sample of integrands.", "anchors": ["mrx/quadrature.py:nodes_and_weights", "mrx/quadrature.py:composite_quad"]}
{"id": "C13", "title": "Trapezoidal rule has uniform points and is exact for affine functions", "statement": "trapezoidal_quad(n) returns n equispaced points of [0,1], both ends included, with positive weights that sum to 1, and integrates affine functions exactly.", "quantifier": "all n >= 2, all affine functions", "why_tests_cant": "All sizes.", "anchors": ["mrx/quadrature.py:trapezoidal_quad"]}
{"id": "C14", "title": "The 3-D quadrature rule is the tensor product of 1-D rules", "statement": "QuadratureRule.x / .w enumerate exactly once every triple of 1-D points with the product weight, in the order that the reshape used elsewhere assumes; integrating a product f(r)g(t)h(z) gives the product of 1-D quadratures and the weights sum to 1.", "quantifier": "all 1-D rules, all functions", "why_tests_cant": "Index ordering for all sizes.", "anchors": ["mrx/quadrature.py:QuadratureRule"]}
{"id": "C15", "title": "Which quadrature requests give the requested rule", "statement": "For a clamped or periodic basis a request for k >= 1 points per element is never rejected, and the rule returned has k points on each element exactly when the degree is at least 1 and k <= 10; for other k it is silently the 10-point rule, for degree 0 it is empty. A spectral rule is returned exactly for 1 <= k <= 10.", "quantifier": "all requested orders and degrees", "why_tests_cant": "Unbounded parameter range.", "anchors": ["mrx/quadrature.py:nodes_and_weights", "mrx/quadrature.py:select_quadrature", "mrx/quadrature.py:composite_quad", "mrx/quadrature.py:spectral_quad"]}
{"id": "C16", "title": "Form index ravel/unravel are inverse bijections", "statement": "For k = 0,1,2,3 (and the vector case -1) unravelling a flat index and ravelling it back gives the same index, ravelling a valid (component, i, j, k) and unravelling returns it, and flat indices 0..n-1 are covered exactly once.", "quantifier": "all nr, nt, nz, dr, dt, dz >= 1, all degrees k, all valid indices", "why_tests_cant": "Depends on three mixed-radix layouts at all sizes.", "anchors": ["mrx/differential_forms.py:DifferentialForm._ravel_index", "mrx/differential_forms.py:DifferentialForm._unravel_index", "mrx/differential_forms.py:DifferentialForm._vector_index"]}
{"id": "C17", "title": "Dimensions of the form spaces satisfy the Euler characteristic", "statement": "n0 - n1 + n2 - n3 = (nr-dr)(nt-dt)(nz-dz), with the documented component sizes n1 = n1a+n1b+n1c etc.; in particular 0 as soon as one direction is periodic.", "quantifier": "all basis sizes and types", "why_tests_cant": "All sizes.", "anchors": ["mrx/differential_forms.py:DifferentialForm.__init__"]}
{"id": "C18", "title": "Basis functions of a form have exactly one active component", "statement": "DifferentialForm evaluation at index (c,i,j,k) is zero in all components but c, where it is the product of the prescribed spline/derivative-spline factors; DiscreteFunction is linear in its coefficients.", "quantifier": "all forms, indices, points, coefficient vectors", "why_tests_cant": "All indices and sizes.", "anchors": ["mrx/differential_forms.py:DifferentialForm.evaluate", "mrx/differential_forms.py:DiscreteFunction"]}
{"id": "C19", "title": "Quadrature-point getters agree with direct evaluation", "statement": "get_Lambda_k_ijk (the tabulated 1-D evaluation used for assembly) returns component k of basis function i at quadrature point j, identical to DifferentialForm evaluation at Q.x[j].", "quantifier": "k = 0..3, all basis indices, all quadrature points, all components, all sizes", "why_tests_cant": "Index decoding for all sizes.", "anchors": ["mrx/derham_sequence.py:DeRhamSequence.get_Lambda_0_ijk", "mrx/derham_sequence.py:DeRhamSequence.get_Lambda_1_ijk", "mrx/derham_sequence.py:DeRhamSequence.get_Lambda_2_ijk", "mrx/derham_sequence.py:DeRhamSequence.get_Lambda_3_ijk"]}
{"id": "C20", "title": "Tabulated exterior derivatives are grad, curl and div of the basis", "statement": "The d_Lambda getters return at quadrature point j the gradient (k=0), curl (k=1), divergence (k=2) of basis function i exactly if nr = nt and nz <= nt; otherwise exactly for those basis functions whose differenced radial index is the last one and nt-1, or neither, and whose differenced axial index is not 0 unless nz <= nt (the getters compare radial and axial indices with nt - 1).", "quantifier": "all basis indices, quadrature points, sizes nr, nt, nz, degrees and quadrature orders that resolve the splines; radially clamped, periodic or constant in the angles", "why_tests_cant": "Boundary indices only misbehave for unequal sizes; all sizes must be covered.", "anchors": ["mrx/derham_sequence.py:DeRhamSequence.get_d_Lambda_0_ijk", "mrx/derham_sequence.py:DeRhamSequence.get_d_Lambda_1_ijk", "mrx/derham_sequence.py:DeRhamSequence.get_d_Lambda_2_ijk"]}
{"id": "C21", "title": "inv33 inverts every well-conditioned 3x3 matrix", "statement": "inv33(A) A = A inv33(A) = I whenever |det A| >= 1e-10, and the zero matrix is returned otherwise.", "quantifier": "all real 3x3 matrices", "why_tests_cant": "Continuum of inputs.", "anchors": ["mrx/utils.py:inv33"]}
{"id": "C22", "title": "Pushforward and Pullback are mutually inverse", "statement": "For each k, Pullback(Pushforward(f)) = f and Pushforward(Pullback(f)) = f at every point where the map's Jacobian is not below the 1e-10 threshold.", "quantifier": "all fields, all maps with an invertible derivative at the point, k = 0..3", "why_tests_cant": "Continuum of inputs.", "anchors": ["mrx/differential_forms.py:Pushforward", "mrx/differential_forms.py:Pullback", "mrx/utils.py:inv33"]}
{"id": "C23", "title": "Pairings of k-forms with (3-k)-forms are invariant under the map", "statement": "push1(a) . push2(b) det DF = a . b, push0(a) push3(b) det DF = a b, and the cross product of two pushed 1-forms is the pushed 2-form a x b.", "quantifier": "all component vectors, all invertible derivatives", "why_tests_cant": "Continuum of inputs.", "anchors": ["mrx/differential_forms.py:Pushforward"]}
{"id": "C24", "title": "curl(grad f) = 0 and div(curl v) = 0", "statement": "The differential operators in utils satisfy curl(grad(f)) = 0 for twice continuously differentiable f and div(curl(v)) = 0 for C2 vector fields.", "quantifier": "all C2 functions, all points", "why_tests_cant": "Quantifies over functions.", "anchors": ["mrx/utils.py:grad", "mrx/utils.py:curl", "mrx/utils.py:div"]}
{"id": "C25", "title": "Metric tables used in assembly are mutually consistent", "statement": "det G = J^2 at each quadrature point, G is symmetric and positive definite where the map is regular, and the stored metric inverse is the inverse of the stored metric exactly at the points with |J| >= 1e-5 (below, it is stored as zero).", "quantifier": "all maps, all quadrature points", "why_tests_cant": "Continuum of inputs incl. badly scaled maps.", "anchors": ["mrx/derham_sequence.py:DeRhamSequence.__init__", "mrx/utils.py:inv33"]}
{"id": "C26", "title": "Boundary operator is an orthonormal selection of interior dofs", "statement": "LazyBoundaryOperator.matrix(): each row has a single 1, rows are distinct (E E^T = I), exactly the boundary-free dofs for the requested condition are kept, and the kept functions have vanishing trace (0-forms: value; 1-forms: tangential; 2-forms: normal) on the constrained faces.", "quantifier": "all sizes, all combinations of boundary types, k = 0..3", "why_tests_cant": "All sizes and index combinations.", "anchors": ["mrx/boundary.py:LazyBoundaryOperator"]}
{"id": "C27", "title": "Boundary operator for vector fields (k = -1) keeps the interior dofs", "statement": "For k = -1 (with at least one row) the operator selects exactly the dofs that vanish on the constrained boundary, each once, if and only if no direction is constrained at its left face (\"dirichlet\" or \"left\"); otherwise it keeps a dof that it has to drop.", "quantifier": "all sizes", "why_tests_cant": "All sizes.", "anchors": ["mrx/boundary.py:LazyBoundaryOperator"]}
{"id": "C28", "title": "Polar extraction yields single-valued functions on the axis", "statement": "Zero-forms produced through LazyExtractionOperator take one value on the polar axis r = 0 for all theta, are continuously differentiable there in the sense of the xi construction (barycentric weights summing to one), partition of unity is preserved, and with the Dirichlet flag they vanish on the outer boundary.", "quantifier": "all nr, nt, nz, all coefficient vectors, all xi from get_xi", "why_tests_cant": "All sizes; exact values at the coordinate singularity.", "anchors": ["mrx/polar.py:LazyExtractionOperator", "mrx/polar.py:get_xi"]}
{"id": "C29", "title": "Polar extraction operators have consistent sizes for every axial basis type", "statement": "For every form built by the constructor with clamped radial and periodic poloidal basis (nr >= 4, nt >= 3, nz >= 2) the number of rows of the polar extraction operator equals the number of independent degrees of freedom it addresses if and only if k is 0, 1 or -1 or the axial basis is not clamped.", "quantifier": "all nr, nt, nz, dz", "why_tests_cant": "Only one axial type is ever tested.", "anchors": ["mrx/polar.py:LazyExtractionOperator"]}
{"id": "C30", "title": "Extraction commutes with the exterior derivative", "statement": "The derivative of an extracted k-form is an extracted (k+1)-form: for the boundary operator and the polar extraction, grad/curl/div map the extracted space into the next extracted space.", "quantifier": "all sizes, all coefficient vectors, both Dirichlet settings", "why_tests_cant": "All sizes.", "anchors": ["mrx/boundary.py:LazyBoundaryOperator", "mrx/polar.py:LazyExtractionOperator", "mrx/derham_sequence.py:DeRhamSequence"]}
{"id": "C31", "title": "Mass matrices are symmetric positive (semi-)definite", "statement": "assemble with a symmetric positive weight returns a symmetric positive semidefinite matrix; it is positive definite iff no non-zero coefficient vector vanishes at all quadrature points.", "quantifier": "all evaluation tables, weights >= 0, coefficient vectors", "why_tests_cant": "All vectors / all sizes.", "anchors": ["mrx/utils.py:assemble", "mrx/derham_sequence.py:DeRhamSequence.assemble_M0"]}
{"id": "C32", "title": "Weak operators are the adjoints of the strong ones", "statement": "For all coefficient vectors, <grad u, v>_M1 = -<u, weak_div v>_M0, <curl v, w>_M2 = <v, weak_curl w>_M1, <div w, s>_M3 = -<w, weak_grad s>_M2.", "quantifier": "all assembled sequences with nonsingular mass matrices, all vectors", "why_tests_cant": "All vectors.", "anchors": ["mrx/derham_sequence.py:DeRhamSequence.assemble_d0", "mrx/derham_sequence.py:DeRhamSequence.assemble_d1", "mrx/derham_sequence.py:DeRhamSequence.assemble_d2"]}
{"id": "C33", "title": "Discrete exactness: curl grad = 0 and div curl = 0", "statement": "strong_curl @ strong_grad = 0 and strong_div @ strong_curl = 0 (and the same for the weak operators).", "quantifier": "all basis types, resolutions, degrees, maps and quadrature rules giving nonsingular mass matrices, polar or not, with or without Dirichlet conditions", "why_tests_cant": "All sizes and geometries.", "anchors": ["mrx/derham_sequence.py:DeRhamSequence.assemble_d0", "mrx/derham_sequence.py:DeRhamSequence.assemble_d1", "mrx/derham_sequence.py:DeRhamSequence.assemble_d2"]}
{"id": "C34", "title": "Discrete Hodge Laplacians are symmetric positive semidefinite", "statement": "M_k dd_k is symmetric positive semidefinite for k = 0..3 and its kernel consists exactly of the discrete harmonic fields (closed and co-closed).", "quantifier": "all assembled sequences with positive definite mass matrices", "why_tests_cant": "All vectors.", "anchors": ["mrx/derham_sequence.py:DeRhamSequence.assemble_dd0", "mrx/derham_sequence.py:DeRhamSequence.assemble_dd1", "mrx/derham_sequence.py:DeRhamSequence.assemble_dd2", "mrx/derham_sequence.py:DeRhamSequence.assemble_dd3"]}
{"id": "C35", "title": "The Leray projector projects onto divergence-free fields", "statement": "P_Leray satisfies div P v = 0, P P = P, P v = v for divergence-free v, and is self-adjoint in the M2 inner product.", "quantifier": "all vectors, all assembled sequences with SPD mass matrices", "why_tests_cant": "All vectors.", "anchors": ["mrx/derham_sequence.py:DeRhamSequence.assemble_leray_projection"]}
{"id": "C36", "title": "L2 projectors reproduce discrete functions", "statement": "Applying Projector(k) to the pushforward of a discrete k-form with coefficients c returns M_k c, so solving with M_k returns c.", "quantifier": "all coefficient vectors, k = 0..3, all maps regular at the quadrature points", "why_tests_cant": "All vectors and geometries.", "anchors": ["mrx/projectors.py:Projector", "mrx/differential_forms.py:Pushforward"]}
{"id": "C37", "title": "Lazy matrices: where they equal the assembled ones", "statement": "For every map with positive Jacobian at the quadrature points: the lazily assembled mass matrices of degree 0, 2, 3 and the projection matrices equal those assembled by DeRhamSequence; the 1-form mass matrix does exactly if the Jacobian is at no quadrature point between 1e-10 and 1e-5 (the cut-offs of the two implementations). On the resolutions where the derivative tables are right (C76) the lazy curl, divergence, double curl and double divergence matrices equal the assembled ones, and the gradient and stiffness matrices do exactly if all gradients vanish at such points; with Jacobian at least 1e-5 the derivative matrices are equal on no other resolution (radially clamped, angles not clamped). The vector-form mass matrix is the L2 product of the pushed-forward fields. LazyDerivativeMatrix.matrix() is the gradient, curl, divergence matrix between the extracted spaces for degrees 0, 1, 2; for 3-forms it is the zero matrix if both forms have the same number of basis functions and raises TypeError otherwise; for vector fields it raises. Expected but false: a zero matrix for all 3-forms; equal for all geometries and resolutions.", "quantifier": "all sizes and geometries", "why_tests_cant": "Two implementations, all inputs.", "anchors": ["mrx/lazy_matrices.py", "mrx/derham_sequence.py:DeRhamSequence"]}
{"id": "C38", "title": "Cross-product projections compute the physical cross product", "statement": "CrossProductProjection(n,m,k)(w,u) is the vector of integrals of (w x u) against basis k for the form degrees n, m, k, for each supported combination; swapping arguments of equal degree flips the sign; pairing with one of its own arguments of the test degree gives zero; unsupported degrees raise.", "quantifier": "all coefficient vectors, all supported (n,m,k), all geometries", "why_tests_cant": "All vectors and geometries.", "anchors": ["mrx/nonlinearities.py:CrossProductProjection"]}
{"id": "C39", "title": "evaluate_at_xq and integrate_against are adjoint", "statement": "sum_j w_j <evaluate_at_xq(c)_j, f_j> = c . integrate_against(f) for all coefficients and fields.", "quantifier": "all coefficient vectors and fields", "why_tests_cant": "All vectors.", "anchors": ["mrx/utils.py:evaluate_at_xq", "mrx/utils.py:integrate_against"]}
{"id": "C40", "title": "picard_solver always terminates within max_iter", "statement": "picard_solver returns for every map f and start, and the returned iteration count is at most max_iter.", "quantifier": "all maps f (including non-contractive ones), all starts, tol, max_iter", "why_tests_cant": "All functions.", "anchors": ["mrx/iterative_solvers.py:picard_solver"]}
{"id": "C41", "title": "What the flag of picard_solver says", "statement": "The returned residual is always the residual of the returned iterate. If the returned iteration count is below max_iter, then either iterations were made and the returned residual is <= tol, or none was made, the residual of f(z_init) is <= tol and the returned point is f(f(z_init)); in the second case the returned residual is <= tol exactly if the residual of f(f(z_init)) happens to be (always for nonexpansive f). Expected but false: a count below max_iter always means a residual <= tol (f(x) = 3x).", "quantifier": "all maps, starts, tolerances", "why_tests_cant": "All functions.", "anchors": ["mrx/iterative_solvers.py:picard_solver"]}
{"id": "C42", "title": "Picard iterates preserve convex invariants", "statement": "If a convex set contains the start and f maps the set into itself then the result of picard_solver lies in the set (linear constraints in particular), for relaxation parameters in [0,1].", "quantifier": "all maps, convex sets, starts", "why_tests_cant": "All functions.", "anchors": ["mrx/iterative_solvers.py:picard_solver"]}
{"id": "C43", "title": "newton_solver solves affine problems in one step and stops at roots", "statement": "newton_solver applied to an affine map with invertible derivative returns its root; starting at a root it returns immediately the same point.", "quantifier": "all affine maps, all starts, all tol > 0, max_iter >= 1", "why_tests_cant": "All maps.", "anchors": ["mrx/iterative_solvers.py:newton_solver"]}
{"id": "C44", "title": "invert_map terminates and its error flag is sound", "statement": "invert_map terminates within max_iter iterations for every map and target.", "quantifier": "all maps, targets, tolerances", "why_tests_cant": "All functions.", "anchors": ["mrx/mappings.py:invert_map"]}
{"id": "C45", "title": "div B = 0 is preserved by the relaxation loop", "statement": "If the initial magnetic field is discretely divergence-free then the field is divergence-free after every Picard iterate, every accepted time step and at the end of run_relaxation_loop, for any velocity, step size, resistivity, acceptance or rejection pattern.", "quantifier": "all initial fields, all schedules of accepted/rejected steps, all parameters", "why_tests_cant": "Unbounded histories.", "anchors": ["mrx/relaxation.py:TimeStepper.midpoint_residuum", "mrx/relaxation.py:TimeStepper.picard_solver", "mrx/utils.py:run_relaxation_loop"]}
{"id": "C46", "title": "Converged steps do not increase magnetic energy", "statement": "Without Newton preconditioning (newton=False) a step solving the midpoint equations exactly satisfies E(B_{n+1}) - E(B_n) = -dt (|u|^2 + eta |J|^2) for gamma = 0 and <= 0 for gamma > 0; an inexact step exceeds this by at most half the residual times the increment, also inside run_relaxation_loop. With newton=True and gamma = 0 the energy does not increase if the Hessian is positive semidefinite.", "quantifier": "all states, dt >= 0, eta >= 0, gamma >= 0", "why_tests_cant": "All vectors.", "anchors": ["mrx/relaxation.py:TimeStepper.midpoint_residuum", "mrx/relaxation.py:MRXDiagnostics"]}
{"id": "C47", "title": "Ideal steps conserve magnetic helicity", "statement": "The linear system that defines the recorded helicity is uniquely solvable exactly for polar Dirichlet sequences with at most as many radial as poloidal splines (radially clamped, angles periodic or constant). There, and for the resolutions on which the derivative tables are right (C76), an update with eta = 0 from a divergence-free field leaves the helicity unchanged up to the Picard residual and the decimals of the Gauss tables; with resistivity it changes by -2 dt eta int J.B_mid. This holds at every iteration of run_relaxation_loop that applies no perturbation, accepted or rejected. With exact quadrature a converged ideal step conserves it exactly; for linear splines with at most two points per element the code's own tables already give exactness.", "quantifier": "all admissible sequences, maps, states, step sizes, velocity options and loop histories", "why_tests_cant": "A test sees a few steps of one geometry; the cancellation E.B_mid = 0 and the integration by parts must hold for all fields.", "anchors": ["mrx/relaxation.py:MRXDiagnostics.helicity", "mrx/relaxation.py:TimeStepper.midpoint_residuum"]}
{"id": "C48", "title": "TimeStepper Picard loop ends with a small residual or at the iteration limit", "statement": "picard_solver of TimeStepper stops; on return either the residual is <= tolerance or the iteration limit was reached; NaN or infinite residuals never count as converged.", "quantifier": "all states and residual functions including NaN/inf outcomes", "why_tests_cant": "All functions.", "anchors": ["mrx/relaxation.py:TimeStepper.picard_solver"]}
{"id": "C49", "title": "Rejected time steps are side-effect free", "statement": "In run_relaxation_loop a non-converged step leaves B_n unchanged, resets the guess to B_n and strictly decreases dt; dt stays positive forever and accepted steps set B_n to the converged guess.", "quantifier": "all histories of accept/reject outcomes", "why_tests_cant": "Unbounded histories.", "anchors": ["mrx/utils.py:run_relaxation_loop", "mrx/relaxation.py:State"]}
{"id": "C50", "title": "Trace lists stay aligned and follow the save schedule", "statement": "All lists of the trace dictionary have equal length after any run; entries are recorded at iteration 0, at multiples of save_every and at the last iteration, only for accepted steps.", "quantifier": "all histories", "why_tests_cant": "Unbounded histories.", "anchors": ["mrx/utils.py:run_relaxation_loop", "mrx/utils.py:append_to_trace_dict"]}
{"id": "C51", "title": "The perturbation is applied once, if its step is accepted", "statement": "A perturbation configured for iteration a >= 1 is applied exactly once, to the converged guess of iteration a, if the step of iteration a is accepted; otherwise it is never applied and the whole run is the run without perturbation. After an accepted iteration the loop stops exactly if the last saved force is below the tolerance, which is the current force if every iteration is saved. Expected but false: the perturbation is always applied; the stop uses the current force.", "quantifier": "all histories", "why_tests_cant": "Unbounded histories incl. a rejected step at that very iteration.", "anchors": ["mrx/utils.py:run_relaxation_loop"]}
{"id": "C52", "title": "Where the relaxed field is after the relaxation", "statement": "run_relaxation_loop leaves the state object of the caller unchanged, so it holds the relaxed field exactly if the relaxation did not change the field. With saved fields, the last saved field is that after the last saved iteration; it is the relaxed field if no later iteration was accepted, in particular if the last iteration was. Expected but false: the caller's state holds the relaxed field.", "quantifier": "all runs", "why_tests_cant": "Aliasing/immutability for all histories.", "anchors": ["mrx/utils.py:run_relaxation_loop", "mrx/relaxation.py:State", "scripts"]}
{"id": "C53", "title": "The discrete Hessian is symmetric", "statement": "The MRX Hessian operator is symmetric (self-adjoint) as a bilinear form.", "quantifier": "all states and directions", "why_tests_cant": "All vectors.", "anchors": ["mrx/relaxation.py:MRXHessian"]}
{"id": "C54", "title": "What runs in one process share", "statement": "Runs whose trace dictionary is default_trace_dict.copy() append to the same lists: each sees the records of all earlier ones, and no two such runs are independent, whatever they compute. Runs with a deep copy record only their own trace. Values written into the default configuration are seen by all later runs. Expected but false: the copies are independent.", "quantifier": "all sequences of runs in one process", "why_tests_cant": "History dependence.", "anchors": ["mrx/utils.py:default_trace_dict", "mrx/utils.py:DEFAULT_CONFIG", "mrx/utils.py:update_config"]}
{"id": "C55", "title": "parse_args turns key=value into typed values", "statement": "parse_args splits each argument at the first '=', keeps the last value of a repeated key and ignores arguments without '='. A value becomes: an int if all its characters satisfy isdigit; a bool if it is true/false up to case; a float if Python reads it as a float (so negative integers become floats); the string itself otherwise. It raises exactly if some value consists of isdigit characters but int rejects it (a character that is not a decimal, or too many).", "quantifier": "all argument lists", "why_tests_cant": "All strings.", "anchors": ["mrx/io.py:parse_args"]}
{"id": "C56", "title": "update_config precedence", "statement": "User parameters override device presets, presets override defaults, unknown keys are ignored, keys not mentioned are unchanged.", "quantifier": "all parameter dictionaries and presets", "why_tests_cant": "All dictionaries.", "anchors": ["mrx/utils.py:update_config"]}
{"id": "C57", "title": "load_sweep returns exactly the runs that do not contradict the reference", "statement": "load_sweep returns, in directory order, exactly the loadable runs each of whose own configuration entries is swept, is the run name, or is in the reference configuration with the same value; for files with the same keys as the reference this is agreement on every key that is not swept. Keys a file lacks are not compared, keys the reference lacks exclude it. An array-valued entry makes it raise.", "quantifier": "all collections of run files", "why_tests_cant": "All file collections.", "anchors": ["mrx/io.py:load_sweep"]}
{"id": "C58", "title": "Saved iteration counts match saved traces", "statement": "The HDF5 output's iteration axis has one entry per recorded trace value.", "quantifier": "all maxit, save_every, runs", "why_tests_cant": "All parameter values.", "anchors": ["mrx/utils.py:save_trace_dict_to_hdf5", "mrx/io.py"]}
{"id": "C59", "title": "Toroidal map is periodic with positive Jacobian", "statement": "toroid_map is periodic in both angles, det DF = (2 pi)^2 eps^2 kappa r R > 0 for r > 0 and 0 < eps < R0-type aspect ratios, and degenerates exactly on the axis.", "quantifier": "all parameters, all points", "why_tests_cant": "Continuum.", "anchors": ["mrx/mappings.py:toroid_map"]}
{"id": "C60", "title": "approx_inverse_map inverts the toroidal map", "statement": "approx_inverse_map applied to toroid_map(x) returns x for 0 < r and angles in the principal range.", "quantifier": "all points, all eps", "why_tests_cant": "Continuum.", "anchors": ["mrx/mappings.py:approx_inverse_map", "mrx/mappings.py:toroid_map"]}
{"id": "C61", "title": "cerfon_map has the documented Miller-type closed form", "statement": "cerfon_map(r,t,z) has major radius R0 + r eps cos(2 pi t + alpha sin 2 pi t) and height r eps kappa sin 2 pi t, hence is periodic in t and z and single valued on the axis.", "quantifier": "all parameters eps > 0, all points with r >= 0", "why_tests_cant": "Continuum.", "anchors": ["mrx/mappings.py:cerfon_map"]}
{"id": "C62", "title": "rotating_ellipse_map rejects bad parameters and has field-period symmetry", "statement": "rotating_ellipse_map raises for invalid nfp/eps; shifting zeta by one unit rotates the image by the field-period angle; periodic in theta.", "quantifier": "all parameters and points", "why_tests_cant": "Continuum.", "anchors": ["mrx/mappings.py:rotating_ellipse_map"]}
{"id": "C63", "title": "Simple maps have the stated Jacobians, the helical map the stated frame", "statement": "The cylinder, polar and drum maps are periodic in the angles and have det DF proportional to r with the documented constants. The vectors of helical_map have length one (where the derivatives of the axis do not vanish), the third is orthogonal to the other two, and the first two are orthogonal to each other exactly where sin(2 pi nfp zeta + alpha) = 0. Expected but false: they are a Frenet frame.", "quantifier": "all parameters and points", "why_tests_cant": "Continuum.", "anchors": ["mrx/mappings.py:cylinder_map", "mrx/mappings.py:polar_map", "mrx/mappings.py:drumshape_map", "mrx/mappings.py:helical_map"]}
{"id": "C64", "title": "GVEC interpolation and stellarator map use the same angles", "statement": "Evaluating gvec_stellarator_map with the interpolated coordinate functions at the logical coordinates of a grid point gives the point at half the toroidal angle, with the right radius and height; it reproduces the grid point's Cartesian position exactly when the point lies on the axis of rotation or its angle is a multiple of 4 pi (for the grid 0 <= zeta < 2 pi/nfp: only at zeta = 0).", "quantifier": "all grids, nfp, coordinate functions", "why_tests_cant": "All nfp and grids.", "anchors": ["mrx/gvec_interface.py:interpolate_map_from_GVEC", "mrx/mappings.py:gvec_stellarator_map"]}
{"id": "C65", "title": "Plot grids keep coordinates and values aligned", "statement": "get_1d/2d/3d_grids return the images of exactly the product grid. In the reshaped arrays, entry i of a 1-D grid and entry (i,j) of a 2-D cut at fixed first or second coordinate is the image of grid point i resp. (i,j). For a cut at fixed third coordinate and for 3-D grids entry (i,j) is the image of grid point (j,i) for all i, j exactly when nx = ny (and of point (i,j) exactly when one direction has a single point).", "quantifier": "all nx, ny, nz", "why_tests_cant": "All sizes; unequal sizes only.", "anchors": ["mrx/plotting.py:get_2d_grids", "mrx/plotting.py:get_3d_grids"]}
{"id": "C66", "title": "Which plane crossings are reported", "statement": "trajectory_plane_intersections_jit: the mask is set for exactly the segments that meet the plane, for all segments, exactly if the plane value is not 0; then a point is reported exactly for the segments that meet the plane without lying in it, and it is their point in the plane. trajectory_plane_intersections_list: a point is listed exactly if it is on the plane and on a segment that is not parallel to it by the absolute threshold 1e-12. intersect_with_plane: a reported point satisfies n.x = |n| offset, hence lies on the plane n.x = offset exactly if |n| = 1 or offset = 0; the reported indices are those with a sign change; for linear interpolation each gives a point of its segment. Expected but false: crossings of the plane 0 are found; quadratic interpolation gives a point of the segment.", "quantifier": "all trajectories, planes", "why_tests_cant": "Continuum.", "anchors": ["mrx/plotting.py:trajectory_plane_intersections_jit", "mrx/plotting.py:trajectory_plane_intersections_list"]}
{"id": "C67", "title": "unique_id has the requested length and alphabet", "statement": "unique_id(n) returns a string of exactly n ASCII letters and digits, for every random outcome, and every such string is possible.", "quantifier": "all n, all random outcomes", "why_tests_cant": "All random outcomes.", "anchors": ["mrx/io.py:unique_id"]}
{"id": "C68", "title": "epoch_time rounds the time down", "statement": "epoch_time(d) is the clock reading in units of 10^-d seconds rounded down: it is monotone in time and dropping the last digit of epoch_time(d+1) gives epoch_time(d).", "quantifier": "all clock readings, all precisions d >= 0", "why_tests_cant": "All real times.", "anchors": ["mrx/io.py:epoch_time"]}
{"id": "C69", "title": "The boundary fit minimises a loss that vanishes exactly on the flux surface", "statement": "The loss minimised by lcfs_fit is nonnegative and zero exactly when the fitted boundary lies on the flux surface through (R0 + aR, 0) at every quadrature point, and get_lcfs_F places the boundary r = 1 on the fitted curve.", "quantifier": "all radius functions, quadrature rules with positive weights and flux parameters", "why_tests_cant": "Continuum of curves.", "anchors": ["mrx/mappings.py:lcfs_fit", "mrx/mappings.py:get_lcfs_F"]}
{"id": "C70", "title": "interpolate_B_from_GVEC excludes exactly the points within exclude_axis_tol of the axis and the boundary", "statement": "The points used in the least-squares problem are those with 1e-3 < rho < 1 - 1e-3; they are those with exclude_axis_tol < rho < 1 - exclude_axis_tol exactly when exclude_axis_tol = 1e-3 (the argument is ignored).", "quantifier": "all tolerances, all grids", "why_tests_cant": "All tolerances.", "anchors": ["mrx/gvec_interface.py:interpolate_B_from_GVEC"]}
{"id": "C71", "title": "Which points of a Poincare section are true crossings", "statement": "poincare_plot, for consecutive samples between which the section coordinate does not wrap: a crossing is reported exactly if the line between them meets the plane modulo one, and the reported point is a point of the line modulo one exactly if t times the number of wraps of each other coordinate is an integer (t the position of the crossing). If the section coordinate wraps, a crossing is invented exactly if it wraps once and the plane value is passed on neither side of the wrap, and crossings are missed exactly if it ends on the side of the plane value it started from. Expected but false: all reported crossings are true.", "quantifier": "all trajectories, plane values in (0,1), axes", "why_tests_cant": "All trajectories.", "anchors": ["mrx/plotting.py:poincare_plot", "mrx/plotting.py:trajectory_plane_intersections_jit"]}
{"id": "C72", "title": "set_axes_equal equalises the axes without cutting off data", "statement": "After set_axes_equal the three axis ranges have equal length, the same midpoints as before, contain the old ranges, and the longest range is unchanged.", "quantifier": "all axis limits", "why_tests_cant": "Continuum.", "anchors": ["mrx/plotting.py:set_axes_equal"]}
{"id": "C73", "title": "Harmonic fields, potentials and solvability follow the topology of the domain", "statement": "For a de Rham sequence on a solid torus (polar) or toroidal shell, the dimension of the kernel of each Hodge Laplacian dd0..dd3 is an explicit number that depends only on polar, dirichlet and on how the numbers of radial and poloidal splines compare. It is the Betti number of the domain (relative to the boundary if Dirichlet conditions are set) exactly when there are at most as many radial as poloidal splines (equally many on a solid torus without Dirichlet conditions; always on a shell with them). jnp.linalg.solve(dd_k, b) is well posed, curl-free fields are gradients, divergence-free fields are curls and densities are divergences exactly when that number is 0; every field has a mass-orthogonal Hodge decomposition; and harmonic_component/helicity's vector potential is in Coulomb gauge with a harmonic remainder on polar Dirichlet sequences wherever it is defined.", "quantifier": "all maps F with regular Jacobian, all degrees, all numbers of splines in the three directions (no relation between them assumed) and quadrature orders, all fields", "why_tests_cant": "Tests compute ranks for a few resolutions in floating point; the claim is for every resolution, degree and map.", "anchors": ["mrx/derham_sequence.py:DeRhamSequence.assemble_dd0", "mrx/derham_sequence.py:DeRhamSequence.assemble_dd1", "mrx/derham_sequence.py:DeRhamSequence.assemble_dd2", "mrx/derham_sequence.py:DeRhamSequence.assemble_dd3", "mrx/relaxation.py:MRXDiagnostics.harmonic_component", "mrx/relaxation.py:MRXDiagnostics.helicity"]}
{"id": "C74", "title": "Energy, norms and helicity measure the physical field", "statement": "MRXDiagnostics.energy is half the integral of |B|^2 of the pushed-forward field, norm_2 its L2 norm (a genuine norm), divergence_norm the L2 norm of the physical divergence; they vanish only for B = 0, resp. for divergence-free B. P12 and P03 are the L2 projections between 2-/1-forms and 3-/0-forms, and helicity is the integral of A.(B + B_harm), independent of how the Coulomb-gauge potential is obtained (polar, Dirichlet, no more radial than poloidal splines: the cases in which it is defined, C73). Energy and helicity are quadratic in B. Integrals are those of the quadrature rule.", "quantifier": "all admissible sequences, maps and fields", "why_tests_cant": "Continuum of fields, maps and resolutions.", "anchors": ["mrx/relaxation.py:MRXDiagnostics.energy", "mrx/relaxation.py:MRXDiagnostics.helicity", "mrx/relaxation.py:MRXDiagnostics.divergence_norm", "mrx/derham_sequence.py:DeRhamSequence.assemble_P12", "mrx/derham_sequence.py:DeRhamSequence.assemble_P03"]}
{"id": "C75", "title": "The pressure diagnostic solves the pressure equation", "statement": "MRXDiagnostics.pressure, for problems that are not force-free: the equation -(grad a, grad p) = (a, div(J x H)), with J x H the L2-projected Lorentz force, has a unique solution for all right-hand sides exactly with Dirichlet conditions and (on polar domains) at most as many radial as poloidal splines, and then the result is that solution. For force-free problems it is the L2 projection of J.B/|B|^2 if B vanishes at no quadrature point, and NaN exactly if it vanishes at one.", "quantifier": "all sequences, maps and fields", "why_tests_cant": "Continuum of fields and sequences; degenerate cases (no Dirichlet condition, field nulls) are not sampled.", "anchors": ["mrx/relaxation.py:MRXDiagnostics.pressure"]}
{"id": "C76", "title": "Strong operators are the exterior derivatives of the discrete fields", "statement": "strong_grad, strong_curl and strong_div, applied to the coefficients of a discrete form, give the coefficients of its gradient, curl, divergence (the discrete form they describe is at every quadrature point the derivative of the given one, and the coefficients are differences of neighbouring ones) exactly if nz <= nt and nr = nt (with Dirichlet conditions: nr <= nt, or nt = 1); the gradient of a constant function is zero exactly if nr = nt or nr = nt + 1, and dz <= nt.", "quantifier": "all resolutions, degrees, maps, fields; polar or not, with or without Dirichlet conditions; radially clamped, periodic or constant in the angles", "why_tests_cant": "Tests use equal resolutions in all directions, where index mistakes are invisible; all resolutions and all fields must be covered.", "anchors": ["mrx/derham_sequence.py:DeRhamSequence.get_d_Lambda_0_ijk", "mrx/derham_sequence.py:DeRhamSequence.assemble_d0", "mrx/derham_sequence.py:DeRhamSequence.assemble_d1", "mrx/derham_sequence.py:DeRhamSequence.assemble_d2"]}
{"id": "C77", "title": "Initial fields of the relaxation scripts are divergence-free, normalised and what they claim", "statement": "P_Leray(solve(M2, P2(B))) is the best divergence-free approximation of B in L2; the start fields of iter_islands.py/stell.py (perturbed, normalised) are divergence-free and stay so during the whole run, with recorded divergence 0; the start field of solovev.py (first generalised eigenvector of dd2) is the harmonic field, has unit norm, zero current, zero helicity. The report of a run (before its output is saved) raises exactly if no due iteration was accepted, which is the case for a run from the harmonic field unless iteration 1 is saved; otherwise it is the time per recorded iteration.", "quantifier": "all sequences, maps, fields, perturbations, configurations, step sizes and clocks; any eigen-decomposition satisfying the eigenvalue equations", "why_tests_cant": "Continuum of fields and configurations, runs of any length; eigenvectors are only determined up to choices of the library.", "anchors": ["scripts/config_scripts/solovev.py:run", "scripts/config_scripts/iter_islands.py:run", "scripts/config_scripts/stell.py:run", "mrx/relaxation.py:TimeStepper.init_state", "mrx/utils.py:run_relaxation_loop"]}
{"id": "C78", "title": "Poisson tutorials solve the discrete Poisson problem", "statement": "solve(M0 @ dd0, P0(f)) is the unique discrete u with (grad u, grad v) = (f, v) for all discrete v, i.e. the minimiser of the Dirichlet energy; linear in f; exact for discrete solutions; the system is singular without Dirichlet conditions, and on polar domains exactly if there are more radial than poloidal splines. The mixed system gives the unique flux/solution pair whenever it is non-singular, which is characterised too. The reported relative error is the L2 norm of the difference over that of the reference. The eigh-based pseudo-inverse is the Moore-Penrose inverse iff its threshold separates, and the vector Poisson solve then leaves exactly the harmonic residual.", "quantifier": "all sequences, maps and right-hand sides; all thresholds and eigen-decompositions", "why_tests_cant": "Convergence tests compare with one manufactured solution; uniqueness, minimality and singularity are about all functions.", "anchors": ["scripts/tutorials/polar_poisson.py", "scripts/tutorials/mixed_polar_poisson.py", "scripts/tutorials/toroid_poisson.py", "scripts/interactive/cylinder_vector_poisson.py"]}
{"id": "C79", "title": "Computed spectra are those of the Hodge Laplacians", "statement": "All eigenvalues of eigh(M_k @ dd_k, M_k) are non-negative, the number of zero ones is the number of harmonic fields of C73 for every resolution (the Betti numbers exactly for the sizes given there), and the others come with mass-orthonormal eigenvectors; the cavity problem eig(M1 (dd1 + strong_grad weak_div), M1) is symmetric positive semidefinite, its complex eigenvalues are real, its modes of non-zero eigenvalue are weakly divergence-free and correspond one to one to divergence-free eigenfields of dd2, and the number of its zero eigenvalues is the number of gradients plus harmonic fields.", "quantifier": "all sequences and maps; all eigen-decompositions; all complex eigenpairs", "why_tests_cant": "Absence of spurious modes is about all eigenpairs on all grids and maps.", "anchors": ["scripts/interactive/toroid_cavity.py", "test/test_harmonic_fields_hollow_toroid.py", "mrx/derham_sequence.py:DeRhamSequence.assemble_dd1", "mrx/derham_sequence.py:DeRhamSequence.assemble_dd2"]}
{"id": "C80", "title": "Assembly methods can be called in any order and any number of times", "statement": "Whatever assembly methods of a DeRhamSequence were called, in whatever order, how often and with whatever exceptions caught in between, every matrix attribute that is set has its documented value; a call raises exactly if an attribute it reads is not set, never unsets anything, and evaluate_1d(); assemble_all(); assemble_leray_projection() succeeds from every reachable state and sets everything.", "quantifier": "all histories of method calls on one object, including failed calls", "why_tests_cant": "The number of call histories is infinite.", "anchors": ["mrx/derham_sequence.py:DeRhamSequence.assemble_all", "mrx/derham_sequence.py:DeRhamSequence.evaluate_1d", "mrx/derham_sequence.py:DeRhamSequence.assemble_d0", "mrx/derham_sequence.py:DeRhamSequence.assemble_leray_projection"]}
{"id": "C81", "title": "GVEC interpolation is the best discrete fit to the data", "statement": "interpolate_map_from_GVEC: the returned map can be evaluated exactly if the sequence is neither polar nor has Dirichlet conditions (otherwise every evaluation raises); then it is the stellarator map of the two discrete functions closest to X1 and X2 on the grid, and reproduces data that come from discrete functions. interpolate_B_from_GVEC returns, for every sequence, the shortest coefficients of the discrete field whose physical (pushed-forward) field is closest to B at the interpolation points.", "quantifier": "all data sets, grids, sequences, maps, field periods", "why_tests_cant": "Optimality is against all discrete functions; all grids and sequences.", "anchors": ["mrx/gvec_interface.py:interpolate_map_from_GVEC", "mrx/gvec_interface.py:interpolate_B_from_GVEC", "mrx/differential_forms.py:DiscreteFunction"]}
{"id": "C82", "title": "Picard iteration converges for contractions", "statement": "If f contracts distances by a factor L < 1 in the norm given, picard_solver reaches every positive tolerance t from every start in a number of iterations that depends only on L, t and the first residual (the adaptive damping cannot stall it); it then reports fewer than max_iter iterations, the residual it reports is at most t, and the returned point is within t/(1-L) of the fixed point. The first step is undamped, the second is damped by min(1, |f(z)-z|/(|z-z_prev|+1e-12)).", "quantifier": "all contractions in all dimensions and seminorms, all starts, tolerances, auxiliary outputs, sufficiently large max_iter", "why_tests_cant": "Ranges over all contractions, starts and step histories; the number of iterations is unbounded.", "anchors": ["mrx/iterative_solvers.py:picard_solver"]}
{"id": "C83", "title": "The assembly loops compute the sums", "statement": "assemble returns the (n1, n2) array of sums over quadrature points and components of Λ1[a]·W·Λ2[b]; evaluate_at_xq returns Σ_i Λ[i] dofs[i] at every quadrature point and component; integrate_against returns Σ Λ[i]·w for every i. integrate_against is the transpose of evaluate_at_xq, multiplying an assembled matrix with a vector is evaluate-weight-integrate, and swapping the two families transposes the matrix.", "quantifier": "all basis getters, weights, coefficient vectors and sizes (including empty ones)", "why_tests_cant": "All sizes and values; the carry of the scan is an unbounded loop.", "anchors": ["mrx/utils.py:assemble", "mrx/utils.py:evaluate_at_xq", "mrx/utils.py:integrate_against"]}
{"id": "C84", "title": "The manufactured solutions of the scripts solve their problems", "statement": "For each scalar Poisson problem of the tutorials and tests, the function u given as exact solution satisfies -Laplace u = f with the given right-hand side f on the mapped domain, and the stated boundary condition. For the vector problem of the cylinder, the arrays u, f read as azimuthal components solve -Laplace U = f; read as Cartesian components, as P2 reads them, they do not (the residual is (1-r)^2 cos 2 pi z).", "quantifier": "every logical point off the axis, every aspect ratio 0 < eps < 1 (torus)", "why_tests_cant": "The scripts only compare errors of the discrete solution at given resolutions; a wrong right-hand side shows up as stagnating convergence, or not at all.", "anchors": ["scripts/tutorials/polar_poisson.py:u,f", "scripts/tutorials/mixed_polar_poisson.py:u,f", "scripts/tutorials/toroid_poisson.py:u,f", "scripts/interactive/toroid_poisson.py:u,f", "scripts/interactive/cylinder_vector_poisson.py:u,f", "test/test_cylinder_vector_poisson.py:u,f"]}
{"id": "C85", "title": "The analytic initial fields are magnetic fields", "statement": "The initial field of iter_islands.py and stell.py is divergence-free and an exact equilibrium J x B = grad p with nested flux surfaces; the Hopf field of hopf.py is divergence-free and tangent to nested tori.", "quantifier": "every point of space (off the axis R = 0 for the first), every parameter kappa, tau, s, omega1, omega2", "why_tests_cant": "An identity of functions on all of space and all parameters.", "anchors": ["scripts/config_scripts/iter_islands.py:B_0", "scripts/config_scripts/stell.py:B_xyz", "scripts/config_scripts/hopf.py:B_xyz"]}
{"id": "C86", "title": "The basis functions span exactly the spline space", "statement": "The linear combinations of a clamped (periodic) SplineBasis are exactly the functions on [0,1] that are polynomials of degree <= p on each of the equal elements and have p-1 continuous derivatives at the interior breaks (and across the seam); those of the DerivativeSpline are the same with degree p-1. In particular every polynomial of degree <= p is reproduced, with the coefficients given by Marsden's identity.", "quantifier": "all numbers of splines n, degrees p, coefficient vectors and functions on [0,1]", "why_tests_cant": "An equality of two infinite-dimensional descriptions of a function space: quantifies over every function, not finitely many evaluations.", "anchors": ["mrx/spline_bases.py:SplineBasis", "mrx/spline_bases.py:DerivativeSpline"]}
{"id": "C87", "title": "Refinement nests the spline spaces", "statement": "Multiplying the number of elements by an integer, at the same degree, gives a space that contains the coarse one; other refinements in general do not (as the convergence sweeps over n = 4, 6, 8, ... assume nothing of the kind).", "quantifier": "all n, p, refinement factors k and coefficient vectors", "why_tests_cant": "For every coarse coefficient vector there must exist a fine one, with equality at every point.", "anchors": ["mrx/spline_bases.py:SplineBasis"]}
{"id": "C88", "title": "Coefficients bound the function", "statement": "A spline function lies between the minimum and maximum of (locally: of the active) coefficients; 0-forms and 3-forms with non-negative coefficients are non-negative, also through the boundary and polar extraction operators, and a polar 0-form lies between its extreme coefficients.", "quantifier": "all sizes, degrees, coefficient vectors, points", "why_tests_cant": "Inequality at every point for every coefficient vector.", "anchors": ["mrx/spline_bases.py:SplineBasis.evaluate", "mrx/extraction_operators.py", "mrx/differential_forms.py:DiscreteFunction"]}
{"id": "C89", "title": "L2 projection reproduces splines pointwise", "statement": "Solving with M0 the load vector of a function that is a (sum of products of) spline(s) of the space, or in particular a polynomial of degree <= p, returns that function at every point of the closed cube and not only at the quadrature points; constants are reproduced on polar sequences.", "quantifier": "every admissible sequence, map, number of terms, splines and points", "why_tests_cant": "Equality of functions at all points for all members of an infinite family.", "anchors": ["mrx/derham_sequence.py:DeRhamSequence.P0", "mrx/projectors.py:Projector"]}
{"id": "C90", "title": "Drum spectra", "statement": "get_evs returns the ascending, non-negative eigenvalues of the Laplacian of the drum with radius function a_hat, exact for the mass matrix shifted by 1e-12 (relative error at most 1e-12 over the smallest mass eigenvalue); frequencies of the fixed drum are positive exactly if there are at most as many radial as poloidal splines; the exact discrete eigenvalues of a drum scaled by c are those of the drum divided by c^2 exactly if all gradients of the space vanish at the quadrature points that are cut off for one of the two drums only, and c^2 times the eigenvalues never falls on enlarging; drums with all coefficients below 1e-3 have only zero eigenvalues; the sign of the radius does not matter; the matrices are those of a DeRhamSequence built with the map of the drum; the loss is zero exactly when the spectra agree. Expected but false: the scaling law for all drums, positive frequencies at all resolutions.", "quantifier": "every admissible sequence, radius function, scale factor, coefficient vector and every linear algebra backend meeting its documentation", "why_tests_cant": "Statements about all shapes, sizes and resolutions; the violations (drums below the metric cut-off, more radial than poloidal splines) lie outside the shapes the script runs.", "anchors": ["scripts/interactive/drumshape.py:generalized_eigh", "scripts/interactive/drumshape.py:get_evs", "scripts/interactive/drumshape.py:main.fit_evs", "mrx/mappings.py:drumshape_map", "mrx/utils.py:inv33"]}
{"id": "C91", "title": "Rotational transform and field line tracing of the plotting scripts", "statement": "The toroidal and poloidal turn numbers computed from a traced field line are the angles travelled over 2 pi whenever neither angle moves by half a turn or more between two save points; they always agree with the truth modulo integers and never exceed (N-1)/2; reversing the trace does not change iota; on nested surfaces the reported iota is |iota| up to an error that vanishes as the trace gets longer; the traced curves have unit speed in physical space; crossings are those of the vertical plane through the axis, with a signed radius that separates the two half planes.", "quantifier": "every trace, number of save points, centre, field, periodic map and (for the error bounds) rotational transform and torus", "why_tests_cant": "Statements about every trajectory; the unwrapping errors appear only beyond a sampling threshold, and for the helical domain the result is wrong for every field.", "anchors": ["scripts/plotting/iter_plots.py:get_iota", "scripts/plotting/stell_plots.py:get_iota", "scripts/plotting/solovev_poincare.py", "mrx/plotting.py:poincare_plot", "mrx/plotting.py:generate_solovev_plots"]}
{"id": "C92", "title": "What plots made from a saved run show", "statement": "generate_solovev_plots draws a run (eps > 0, kappa != 1, R_0 != 0) on the domain it was computed on exactly if it is a tokamak run with R_0 = 1; the picture names carry the right iterations exactly if no iteration due to be saved was rejected before the last saved one, and are never too large; the Poincare section is never drawn, and the prepared seeds are triples of consecutive radii rather than points on a radial line.", "quantifier": "every configuration, every history of accepted and rejected iterations, every number of seeds", "why_tests_cant": "Depends on the whole history of the run and on the configuration; the plotting routine runs without error in all wrong cases.", "anchors": ["mrx/plotting.py:generate_solovev_plots", "scripts/config_scripts/solovev.py:run", "mrx/utils.py:run_relaxation_loop"]}
{"id": "C93", "title": "The island perturbation is the configured mode, applied with the configured strength", "statement": "The perturbation built by iter_islands.py and stell.py is radial in logical coordinates, localised by the configured Gaussian, periodic in both angles for integer mode numbers, and changes sign half a mode period further; perturbing a field moves it by exactly pert_strength in the L2 norm in the direction of the projected perturbation, leaves the divergence unchanged and changes the energy by the work done plus pert_strength^2/2; apply_pert_after = 0 perturbs the start exactly as the loop would.", "quantifier": "every map, location, width, mode numbers, point, admissible sequence, field and strength", "why_tests_cant": "Holds for every configuration and field; the cases where the perturbation vanishes (axisymmetric resolution, mode number 0) run without an error.", "anchors": ["scripts/config_scripts/iter_islands.py:run", "scripts/config_scripts/stell.py:run", "mrx/relaxation.py:apply_perturbation", "mrx/utils.py:run_relaxation_loop"]}
{"id": "C94", "title": "Cavity eigenvalues: analytic table and saddle point problem", "statement": "The table of analytic TE and TM eigenvalues is sorted and lists every mode with its multiplicity, and is complete below the lowest mode left out; it raises exactly for a non-positive radius or period and, if any radial number is given, for radial numbers that are all non-positive, a negative azimuthal or axial number, and a radial number at or below minus the largest (if some order has roots); the comparison passes exactly if every computed eigenvalue is within the relative tolerance of an analytic one; the saddle point problem has exactly the weakly divergence-free Maxwell eigenmodes as solutions, with real and (for the script's domain) positive eigenvalues, m1 - m0 in number.", "quantifier": "every list of mode numbers, radius and period, root table; every admissible sequence, eigenvalue and vector", "why_tests_cant": "A statement about all mode lists and about all eigenpairs at all resolutions; the singular pencils produce plausible numbers without an error.", "anchors": ["scripts/interactive/cylinder_cavity.py:calculate_cylindrical_periodic_TE_TM_eigenvalues", "scripts/interactive/cylinder_cavity.py:check_eigenvalues", "scripts/interactive/cylinder_cavity.py"]}
{"id": "C95", "title": "Drum shape: target and optimisation history", "statement": "The target radius is that of the ellipse with semi-axes a and a*e; the target coefficients are the unique best fit of it by periodic splines in the quadrature norm, exact for circles and with the same mean radius; the optimisation loop draws the shape of the iteration named in the file, and its loss history holds the loss of the start twice and then of every iterate but the last.", "quantifier": "every a, e > 0, angle, number of splines and degree up to 3; every loss function, optimiser, plotting interval and number of steps", "why_tests_cant": "Optimality among all splines and statements about every history of the optimiser cannot be sampled.", "anchors": ["scripts/interactive/drumshape.py:setup_target_shape", "scripts/interactive/drumshape.py:main"]}
{"id": "C96", "title": "Scripts ask a sequence only for what it has", "statement": "A program that uses a DeRhamSequence raises AttributeError exactly when a check by names alone rejects it: some attribute is read, or some method called, before the method that creates what it needs. After evaluate_1d, assemble_all, build_crossproduct_projections and assemble_leray_projection no use of the API can raise. The relaxation scripts (all settings, all lengths), tutorials, interactive and plotting scripts pass. Expected but false: scripts/config_scripts/hopf.py, which calls a removed method and always fails.", "quantifier": "every program (sequence of attribute reads, method calls, projections and cross products), every object reached by any history with caught exceptions, every grid and map; every run setting, number of iterations and of saved fields", "why_tests_cant": "The settings and the number and kinds of iterations determine which attributes are read; a test runs one combination.", "anchors": ["mrx/derham_sequence.py:DeRhamSequence", "mrx/relaxation.py:TimeStepper", "mrx/utils.py:run_relaxation_loop", "scripts/config_scripts/solovev.py:run", "scripts/config_scripts/hopf.py", "scripts/tutorials", "scripts/interactive", "scripts/plotting"]}
{"id": "C97", "title": "Rigid motions and changes of units", "statement": "Turning and moving a device changes nothing but the map: the matrices and, with the perturbation turned too, every state and trace of a relaxation are identical. Measuring lengths in units s times smaller multiplies every matrix, projection and diagnostic by its power of s (mass matrices of k-forms s^(3-2k), weak operators and Laplacians s^-2, energy s^-1; strong operators, Leray projection and helicity unchanged), as long as the Jacobian stays above the threshold of the inversion; a relaxation without Hessian and regularisation, with tolerances in the same units and below 1, accepts the same steps and records the same values in their units, also with fields in other units. Expected but false: that this holds in every unit (a small device has zero 1-form mass matrix), for the Hessian (two terms with different units) and for the regularisation (length 1).", "quantifier": "every grid, boundary condition, map, rotation, shift and unit; every field, state, trace, configuration, perturbation and number of iterations", "why_tests_cant": "A test compares one device in two units; the powers must be right in every entry of every matrix, for every device, and after every number of steps.", "anchors": ["mrx/derham_sequence.py:DeRhamSequence", "mrx/projectors.py:Projector", "mrx/nonlinearities.py:CrossProductProjection", "mrx/relaxation.py:TimeStepper", "mrx/relaxation.py:MRXDiagnostics", "mrx/relaxation.py:MRXHessian", "mrx/utils.py:run_relaxation_loop", "mrx/utils.py:inv33"]}
{"id": "C98", "title": "Toroidal symmetry is preserved", "statement": "On a device that a rigid motion carries to itself when the toroidal coordinate advances by m cells of a periodic grid (axisymmetric, helical with field periods, straight), moving the coefficients by m cells commutes with every assembled operator, projection, product and diagnostic, and moves the physical field with the device; a relaxation from the moved state is the moved relaxation with the same recorded numbers; so a run from the projection of a symmetric field, with a symmetric perturbation, stays symmetric after every number of iterations. This needs at most as many toroidal as poloidal splines: with more, the divergence does not commute with any such shift (expected but false: symmetry on every grid).", "quantifier": "every symmetric map, grid with a periodic toroidal direction, shift, polar and boundary option, field, state, trace, configuration, and number of iterations", "why_tests_cant": "A test looks at one axisymmetric run; the property says that no entry of any matrix and no step of any run breaks the symmetry, for all sizes and maps, and for which sizes.", "anchors": ["mrx/derham_sequence.py:DeRhamSequence", "mrx/differential_forms.py:DifferentialForm", "mrx/extraction_operators.py", "mrx/projectors.py:Projector", "mrx/nonlinearities.py:CrossProductProjection", "mrx/relaxation.py:TimeStepper", "mrx/relaxation.py:MRXDiagnostics", "mrx/utils.py:run_relaxation_loop", "mrx/mappings.py", "scripts/config_scripts/iter_islands.py", "scripts/config_scripts/stell.py"]}
{"id": "C99", "title": "A relaxation makes progress and reaches the force tolerance", "statement": "With a positive Picard tolerance and at least one Picard iteration, rejected steps end: at most n in a row, for any n >= 1 with dt |curl E| <= tol 2^n, so a run never gets stuck (with a negative tolerance, or no iteration and tol < 1, every step is rejected). Without Newton steps the norm of the field grows by at most tol per iteration (plus the strength of the perturbation), and the sum of dt |u|^2 over the accepted steps is at most the energy lost plus k tol (|B_0| + k tol). Without perturbation and with dt_factor >= 1 the time step does not collapse (solver_critit >= 2; with solver_critit <= 1 and dt_factor > 1 the time covered by any run is bounded). So for every initial state, eta >= 0 and force tolerance, a run with solver_maxit >= 2, solver_critit >= 3 and a small enough Picard tolerance reports a force below the tolerance after finitely many iterations, and stops there if every iteration is recorded; if the limits allow log2(1/tol) evaluations, the number of iterations does not depend on the tolerance. Helicity bounds the energy from below.", "quantifier": "every admissible sequence, initial state, resistivity, regularisation, force-free option, configuration, history of accepted and rejected steps, and number of iterations", "why_tests_cant": "A test runs a few hundred iterations from one field; the property is about all runs of any length, and says that none stalls and that the force tolerance is reached from every initial field.", "anchors": ["mrx/utils.py:run_relaxation_loop", "mrx/relaxation.py:TimeStepper.midpoint_residuum", "mrx/relaxation.py:TimeStepper.picard_solver", "mrx/relaxation.py:MRXDiagnostics"]}
{"id": "C100", "title": "Discrete functions and fields approximate continuous ones with explicit bounds", "statement": "If a function varies by at most eps over half a spline support (p+1 half elements: (p+1)/(2(n-p)) clamped, (p+1)/(2n) on the circle for periodic), some spline function is within eps of it everywhere, with the same end values in the clamped case (first order for Lipschitz functions); if it differs from its tangents by at most M/2 (x-y)^2, the error is at most M/2 times the square of that width, and for convex functions the approximation lies above. The same bound holds in the logical cube for discrete 0-forms of every sequence, polar (if the function also varies by at most eps between the two innermost rings of elements and the axis) or not, with Dirichlet condition if the function vanishes there; and, on sequences without a polar axis, for each logical component of forms of every degree. So the L2 projections solve(M_k, P_k(f)) of all four degrees have a squared quadrature-L2 error of at most eps^2 times the volume (times explicit metric factors for k >= 1).", "quantifier": "every accepted size, degree and basis type within the resolution limits of C01/C02, every map with a regular Jacobian, every function or field, every eps, every point", "why_tests_cant": "Convergence tests evaluate one function on a few meshes at a few points; the bound holds for all functions, meshes and points and with explicit constants.", "anchors": ["mrx/spline_bases.py: SplineBasis.evaluate, DerivativeSpline", "mrx/differential_forms.py: DifferentialForm, DiscreteFunction", "mrx/projectors.py: zeroform_projection, oneform_projection, twoform_projection, threeform_projection", "mrx/derham_sequence.py: DeRhamSequence", "mrx/polar.py, mrx/boundary.py"]}
{"id": "C101", "title": "Computed Poisson solutions are the best possible ones, with explicit error bounds", "statement": "Wherever the scalar system is well posed (C78), solve(M0 @ dd0, P0(f)) has the gradient closest to G of all discrete functions, for every field G satisfying the weak equation (G, grad v) = (f, v); if the weak equation holds up to sqrt(K) times the energy norm (quadrature error; a smallest such K always exists and is attained) the squared energy error exceeds the best one by at most K. A Poincare inequality lam |v|^2 <= |grad v|^2 with lam > 0 always holds, and then lam |grad u|^2 <= |f|^2 and lam^2 |u|^2 <= |f|^2; the L2 error is bounded by the L2 and energy distances of any discrete function. In the mixed formulation the computed flux is the closest one to the exact flux among all discrete fluxes with the prescribed divergence (up to K). On sequences without polar axis whose strong_grad is the gradient (C76), a function whose logical partial derivatives vary by at most eps within the resolution has a discrete approximation (with the same boundary condition) whose discrete gradient is within eps of its gradient, so the squared energy error of the computed solution is at most 3 kappa eps^2 volume + K, kappa bounding the squared norm of DF^-T.", "quantifier": "every admissible sequence with the stated sizes and basis types, every map with regular Jacobian, every source, every exact solution, every discrete competitor, every eps and K", "why_tests_cant": "The convergence scripts measure the error for one manufactured solution on a few meshes; optimality over all discrete functions and the error bound for all solutions and meshes are universal statements.", "anchors": ["scripts/tutorials/polar_poisson.py: get_err", "scripts/tutorials/toroid_poisson.py: get_err", "scripts/tutorials/mixed_polar_poisson.py: get_err", "mrx/derham_sequence.py: assemble_dd0, assemble_dd3, assemble_d0", "mrx/projectors.py: Projector"]}
{"id": "C102", "title": "The trace figures of a run show what the run recorded", "statement": "On the traces of any relaxation run, after any number of iterations, trace_plot returns without error and saves two figures: the energy figure draws energy[0] - energy[i] against the index i (exactly 0 first; all values non-negative exactly when no recorded field has more energy than the first one), the force figure draws recorded forces, velocities and |helicity - helicity[0]| against the recorded iteration numbers and divergence - divergence[0] against the recorded wall times. In general trace_plot returns exactly when the six needed traces exist, the lengths match and no trace whose first entry is subtracted is empty. Expected but false: the curve labelled |div B| shows the recorded norms - it does exactly when the initial field is divergence-free; and both files are written to the directory filename - they are exactly when filename ends with '/' (otherwise the energy figure lands beside the directory, its name glued to the directory's).", "quantifier": "every run of every solver environment and configuration, every number of iterations, every file name, every dictionary of traces", "why_tests_cant": "The tests draw one three-entry trace into a temporary directory ending with a slash and look for the files; what is drawn for every run and for which inputs the call fails are universal statements.", "anchors": ["mrx/plotting.py: trace_plot", "mrx/utils.py: run_relaxation_loop, save_trace_dict_to_hdf5"]}
{"id": "C103", "title": "Coloured cuts and contour plots attach every value to its point", "statement": "On every two-dimensional cut the vertex drawn at an index is the image of a grid point and the value there is the function at that point. plot_torus colours lie in [0, 1], are ordered exactly as the values across all cuts, and use the whole range unless the function is constant on the cuts. plot_crossections colours each cut by itself: ordered as the values within a cut, NaN exactly on cuts where the function is constant, comparable between two cuts exactly when both have the same extreme values. plot_crossections_separate returns exactly for at least two cuts and enough labels; panel i then shows cut i in (R, z) with label zeta_vals[i], and the common limits contain every vertex and are attained. plot_scalar_fct_physical_logical returns exactly for the listed plane names and draws at index (i, j) the scaled value at the logical point whose plane coordinates are the i-th and j-th equidistant numbers. plot_twin_axis returns exactly when lengths match and draws the given data; converge_plot draws one line per (p, q). Expected but false: pressure_plot draws a product grid - exactly for resolution 64 (the default is 128); its dashed outline bounds the drawn section - exactly for whole-number zeta (tokamak map); the physical panel is drawn for all names of the r-theta plane - exactly for r_theta and rθ, not for rt, which the error message recommends; markers tell the orders apart - exactly for at most 20 orders.", "quantifier": "every function, map, cut, grid size, list of cuts, plane name, resolution, tolerance (except 1/2) and data series", "why_tests_cant": "The tests only check that figures are created for one function and one resolution; the data handed to the plotting library for every input are not inspected.", "anchors": ["mrx/plotting.py: plot_torus, plot_crossections, plot_crossections_separate, pressure_plot, plot_scalar_fct_physical_logical, plot_twin_axis, converge_plot, get_2d_grids"]}
{"id": "C104", "title": "The interactive vector Poisson script solves a different problem", "statement": "The matrix inverted by scripts/interactive/cylinder_vector_poisson.py is symmetric positive semidefinite with the right number of null vectors, and its divergence part is right. Expected but false: it is the matrix of the vector Laplacian M2 dd2 (as in the test of the same name) - it is exactly when multiplying the curl part by M2 from both sides changes nothing, which among the domains of one shape holds for at most one size; its null vectors are the harmonic fields - they are the divergence-free coefficient vectors orthogonal to all curls in the Euclidean instead of the L2 product, and the system is solvable exactly for sources L2-orthogonal to those. The printed error is the relative L2 distance of the computed field from the projection of the exact solution, zero exactly for equal coefficients.", "quantifier": "every admissible sequence, map, number of splines, degree, boundary condition, size of the domain and source", "why_tests_cant": "The script has no test (the test of the same name assembles another matrix), and no comparison at one size of the cylinder can tell a matrix that is wrong by units.", "anchors": ["scripts/interactive/cylinder_vector_poisson.py: get_err", "mrx/derham_sequence.py: assemble_d1, assemble_dd2", "mrx/mappings.py: cylinder_map"]}
{"id": "C105", "title": "Which resolutions keep the library's maps away from the metric cutoff", "statement": "The innermost quadrature points lie at r = (1 + xi)/(2(n - p)) with xi the smallest Gauss node, never below 1/(77(n - p)). For maps with positive Jacobian determinant the sequence is admissible (all theorems about assembled matrices apply) exactly when the stored inverse metric is the inverse of the stored metric at every quadrature point. For polar_map and cylinder_map this holds exactly up to an explicit resolution, for toroid_map between two explicit resolutions, for cerfon_map (|alpha| <= 1) and rotating_ellipse_map (0 <= kappa <= 2) up to an explicit one: 8000 radial elements always suffice on the disc and unit cylinder, 200 for the default parameters of solovev.py, stell.py, iter_islands.py and the tokamak presets. Beyond, the assertion min(J_j) > 0 of the scripts still passes although the stored inverse metric is zero at an innermost point.", "quantifier": "every number of splines, degree, type, rule with at most 10 points, boundary condition, and every map parameter in the stated ranges", "why_tests_cant": "Tests use a handful of coarse meshes; at which resolution the silent cutoff sets in, for all parameters, is a statement about all meshes.", "anchors": ["mrx/utils.py: inv33", "mrx/derham_sequence.py: DeRhamSequence.__init__", "mrx/quadrature.py: composite_quad, nodes_and_weights", "mrx/mappings.py", "scripts/config_scripts/solovev.py: run"]}
{"id": "C106", "title": "From the command line of a relaxation script to the sequence it computes with", "statement": "The discretisation of a run of solovev.py, iter_islands.py and stell.py depends on exactly the listed parameters (device, shape and size parameters); no other parameter, in particular not R_0, influences it. Sizes are those given or the defaults; one toroidal spline switches to a constant direction of degree 0, GitHub Actions forces 4 x 4 x 4 quadratic splines. Without shape parameters, for every combination of sizes with degrees 2..10, enough splines and at most 200 radial elements, the run passes its assertion on the Jacobian and computes with an admissible sequence on the documented map (rotating ellipse 0.2, 1.7, 3; tokamak 0.33, 1.7, 0.33; rotating ellipse 0.33, 1.1, n_fp; with boundary_type=tokamak and a device, the tokamak of that device). An unknown boundary type raises ValueError. Expected but false: a device preset selects the device's domain - without boundary_type, ITER, SPHERO and HELIX run on a rotating ellipse with 3 field periods, NSTX always fails the assertion, ROT_ELL is the same as no device; nfp is the number of field periods - stell.py ignores it and reads n_fp.", "quantifier": "every command line (parsed parameters), device name, number of splines and degree in the stated range, in and outside GitHub Actions", "why_tests_cant": "The scripts are run in the tests with one set of parameters; which parameters take effect, and that no admissible combination of sizes fails the assertion, is about all command lines.", "anchors": ["scripts/config_scripts/solovev.py: run", "scripts/config_scripts/iter_islands.py: run", "scripts/config_scripts/stell.py: run", "mrx/utils.py: update_config, DEFAULT_CONFIG, DEVICE_PRESETS", "mrx/mappings.py", "mrx/derham_sequence.py: DeRhamSequence.__init__"]}
{"id": "C107", "title": "When the helical map is defined and invertible", "statement": "The frame of helical_map is defined along the whole axis exactly when |kappa h| (1 + nfp^2) is not 1 (otherwise it divides by the zero norm of the second derivative of the axis). If moreover |kappa h| < 1, the three frame vectors are independent (although not orthogonal) and right-handed everywhere, the Jacobian determinant is given by a closed formula, it is at least c eps^2 r for all tubes thinner than some eps0, and all thin tubes give admissible sequences if the radial elements are not too small. With height zero the map is the circular torus and neither kappa, delta nor nfp matter. Expected but false: boundary_type=helix runs on a helix - the default height is zero, so the run is on a circular torus.", "quantifier": "every radius, height, elongation, phase and (real) number of field periods of the helix, every point of the tube, every admissible grid, every command line", "why_tests_cant": "The tests evaluate the map at a few points with one set of parameters; degeneracy happens on a set of parameters of measure zero, and positivity of a determinant on a whole tube is no finite check.", "anchors": ["mrx/mappings.py: helical_map", "scripts/config_scripts/solovev.py: run", "mrx/utils.py: DEFAULT_CONFIG"]}
{"id": "C108", "title": "What a relaxation script writes to its file", "statement": "A file of solovev.py, iter_islands.py or stell.py is called script_outputs/<script>/<name>/<name>.h5 (stell.py: .h5.h5) with the given run name or eight random characters, and its attributes are the configuration. Traces, saved fields and pressures have one entry per recorded iteration, beginning with iteration 0; fields are there exactly if save_B is set; every field and every recorded divergence of iter_islands.py and stell.py on an admissible sequence is divergence-free. The two scripts write a file exactly if some iteration due for saving has an accepted step, otherwise they end with ZeroDivisionError. Expected but false: B_final, p_final and harmonic_norm describe the relaxed field - they are those of the initial field, whatever the relaxation did, so they depend on the domain, the sizes and the initial field only (not on maxit, dt, eta, tolerances ...). Expected but false: solovev.py relaxes a field and writes it - it starts in equilibrium, so unless a perturbation is due at iteration 1 (which raises KeyError: dB_xyz) it writes a file only for maxit = 1 or save_every = 1, and later perturbations are never applied; with the default parameters it ends with ZeroDivisionError and writes nothing. A numeric run_name never leads to a file.", "quantifier": "every command line (parameter dictionary), every clock and random choice, every correct pinv/eigh/lstsq, every admissible sequence", "why_tests_cant": "The scripts are not run by the unit tests; what is stored as the final field looks like a plausible field, and that it does not depend on the relaxation is a statement about pairs of runs.", "anchors": ["scripts/config_scripts/solovev.py: run", "scripts/config_scripts/iter_islands.py: run", "scripts/config_scripts/stell.py: run", "mrx/utils.py: run_relaxation_loop, save_trace_dict_to_hdf5, DEFAULT_CONFIG", "mrx/relaxation.py: TimeStepper, State"]}
{"id": "C109", "title": "A relaxation keeps the helicity, and with it a part of the energy", "statement": "For every discretisation on a polar domain with Dirichlet conditions there is a constant C (depending only on it, the options of the stepper and a bound of field and resistivity) such that at every iteration of every run of run_relaxation_loop without Newton steps and perturbation the helicity differs from the initial one by at most C times the time covered (sum of the accepted time steps) times (Picard tolerance + resistivity + decimals of the Gauss tables); the same holds for every helicity recorded in the trace. Hence the energy never falls below (|initial helicity| - this drift) / kappa. For every divergence-free initial field and every force tolerance there is a number K of iterations such that with a small enough Picard tolerance the run stops or reports a force below it within K iterations, with helicity changed by at most C (tol + eta + decimals); with linear splines and two points per element and no resistivity the change is as small as one likes.", "quantifier": "all admissible polar Dirichlet sequences, maps, regularisations, initial states, configurations without perturbation, clocks, and all numbers of iterations with every pattern of accepted and rejected steps", "why_tests_cant": "Tests run a few hundred steps at one resolution and look at the printed helicity; a bound for all runs and all lengths, with a constant independent of the run, is a statement about all histories.", "anchors": ["mrx/utils.py: run_relaxation_loop", "mrx/relaxation.py: TimeStepper.midpoint_residuum, TimeStepper.picard_solver, MRXDiagnostics.helicity, MRXDiagnostics.energy"]}
{"id": "C110", "title": "The convergence studies report what they measured", "statement": "run_convergence_analysis(ns, ps) of the tutorials and of cylinder_vector_poisson.py makes two passes over all pairs, row by row. It returns exactly when no call of get_err raises; otherwise it raises what the first failing call raises and nothing is returned. The returned tables have a row per number of splines and a column per degree; entry (i, j) of the errors is the value of get_err(ns[i], ps[j]) in the second pass (in the first, where the second pass drops it), the times are the differences of the clock readings around that call, non-negative and with a sum of at most the elapsed time for a clock that does not run backwards. For the polar, mixed polar and toroidal tutorials with degrees 1 to 8 and 3 to 3000 splines the study returns exactly when every degree is less than every number of splines, and the entry is the relative L2 error of the one discrete weak solution against the exact solution (whose norm is not zero); the ranges of the main functions are such. The figures draw the columns, the speed-up is the quotient of the two times, and the reference lines meet the measured curve at the last number of splines and decay with power 2p - 1 (2 for p = 1).", "quantifier": "all lists of numbers of splines and of degrees, all outcomes of every single call of get_err, all clocks; for the tutorials all degrees 1 to 8 and all n from 3 with up to 8000 (torus: 3000) radial elements", "why_tests_cant": "Tests call get_err for one resolution and compare with a threshold; that the table associates values with the right pair for all lists, what happens when any one call fails, and that the reported number is the relative error at every resolution cannot be tested.", "anchors": ["scripts/tutorials/polar_poisson.py: get_err, run_convergence_analysis, plot_results, main", "scripts/tutorials/mixed_polar_poisson.py: get_err, run_convergence_analysis, plot_results, main", "scripts/tutorials/toroid_poisson.py: get_err, run_convergence_analysis, plot_results, main", "scripts/interactive/cylinder_vector_poisson.py: run_convergence_analysis, plot_results"]}
{"id": "C111", "title": "The command-line Poisson study writes its own file, with its own numbers", "statement": "scripts/interactive/toroid_poisson.py ends normally exactly when it has two arguments or more, the first two are integers, and get_err(n, p) returns; then script_outputs/toroid_poisson_{n}_{p}.txt holds the lines error, sparsity, cond of this pair, whatever it held before, and nothing else changes. Every other end changes no file: too few or non-integer arguments end with exit code 1, and the only exceptions are those of get_err. Different pairs have different files, and any sequence of runs leaves the same files whatever the order and the repetitions. For degrees 2 to 10 and 2 to 3000 radial elements the system solved is regular, the first number is the relative L2 error of the one discrete weak solution, the sparsity is the fraction of entries above 1e-12. Expected but false: that n <= p or bad arguments raise ValueError (docstring), and that degree 1 works: with an even number of splines the mass matrix that get_err inverts is singular (one quadrature point per element), and nothing is raised.", "quantifier": "all argument lists, all contents of the file system, all sequences of runs, all outcomes of get_err; all degrees 2 to 10 with 2 to 3000 radial elements, all even n for degree 1", "why_tests_cant": "CI runs the script once with (8, 3) and looks at the exit code only.", "anchors": ["scripts/interactive/toroid_poisson.py: get_err, main", ".github/workflows/ci.yml: Run script"]}
{"id": "C112", "title": "The Poincaré scripts draw a run on the domain it was computed on exactly in the cases listed", "statement": "For every file a finished iter_islands or stellarator run wrote, there is exactly one run_name under which iter_plots.py / stell_plots.py opens that file, namely n/n for iter_islands and n/n.h5 for stell, where n is the name of the run; the paths solovev_poincare.py and helix_plots.py open are written by no run. stell_plots always rebuilds the sequence of the run. For m_rot other than 1, iter_plots draws a run on its own domain exactly when a device preset was named, the final type is tokamak and the fields were saved; without a device it raises KeyError 'type' (a run stores boundary_type), with HELIX it raises TypeError (n_turns is not a parameter of helical_map), with ROT_ELL it draws the field on a rotating ellipse with five periods, another domain than the one computed on. One figure is written per saved field, under distinct file names, in order; without save_B AttributeError. Without run_name KeyError, with one that is not a string TypeError. Expected but false: that the plot scripts can plot any run of the scripts they belong to.", "quantifier": "all parameter dictionaries of the runs and of the plot scripts, all command lines, all numerical libraries, all file systems, all numbers of saved fields", "why_tests_cant": "no test runs the plot scripts; a failure depends on which of the presets was named in a run made hours before.", "anchors": ["scripts/plotting/iter_plots.py", "scripts/plotting/stell_plots.py", "scripts/plotting/helix_plots.py", "scripts/plotting/solovev_poincare.py", "scripts/config_scripts/iter_islands.py: main", "mrx/io.py: load_sweep, DEVICE_PRESETS"]}
{"id": "C113", "title": "The Poincaré sections show every crossing, once, on the side and in the colour it belongs to", "statement": "For every set of traced lines, each figure of the Poincaré scripts (iter, stell, helix, solovev_poincare) has on its left panel one dot for every crossing of a drawn line with negative signed radius, on its right panel one for every crossing with positive signed radius, at (signed radius, height), strictly inside the panel's limits; both panels have the same width, do not overlap, and leave out R = 0. Left colours are the place of the pressure in [0, max], growing with it and independent of the factor 100; right colours those of the line's rotational transform in [min, max] (stell: 5th to 95th percentile, helix: the pressure). The colours come from exactly the first 218 entries of turbo and 231 of plasma (of 256); larger values never get an earlier entry, and values that differ by 1/128 of the range get different ones. The order of the lines changes only the order of the dots. If the crossings lie on the section, distances in the figure are distances in space and the panels are the two opposite half planes. The seeds are one per equidistant radius with the angles taking turns, and exist exactly if the number of angles divides the number of lines; get_crossings returns N rows, each found from just behind the one before. Expected but false: that a figure is always drawn (if all pressures are negative, ValueError, exactly), that the pressure at r = 1 is that of the edge (it is read at the centre, r mod 1), and that the seeds are sorted by signed distance (the key is cos of the angle in turns).", "quantifier": "all lists of field lines, maps, pressures, orders of the lines, seed plans, integrators", "why_tests_cant": "the scripts have no tests; which dots fall outside the limits, or which panel shows them, depends on all the crossings together.", "anchors": ["scripts/plotting/iter_plots.py: get_crossings, F_cyl_signed, plotting loop", "scripts/plotting/stell_plots.py", "scripts/plotting/helix_plots.py", "scripts/plotting/solovev_poincare.py"]}
{"id": "C114", "title": "Sweep figures: one curve per run, told apart as the legend says", "statement": "plot_traces draws one curve for each run, with the trace and the iterations it was given, in the colour and line style that the legend gives for its values of the one or two swept parameters; the legend lists exactly the values that occur, each once, in ascending colours; different values have different colours exactly if there are at most 256, different line styles exactly if there are at most five; it raises exactly if a key is missing in a run, a fixed parameter is not one and the same everywhere (or there is no run), the two parameters coincide, or lengths differ. force_multiplot.py writes its 18 figures, to 18 different files, exactly if for each of the six quantities the loaded traces are equally long and each of the three step sizes occurs in a run, all with n_r and dt_max; each figure then shows the loaded runs with its step size. Expected but false: that the sweep script draws runs of the relaxation scripts (they store no dt_max: on every directory of their files it writes nothing and raises; they store no energy_diff_trace either), that the helicity figures show |H - H_0| (they show the difference to the first loaded run, so its own curve is zero), and that the abscissae are the recorded iterations (for a run without rejected steps, exactly if save_every divides maxit).", "quantifier": "all lists of configurations, traces and parameters; all directories, reference files and runs", "why_tests_cant": "the scripts have no tests; which runs get the same line style, or end the script, depends on the whole directory.", "anchors": ["scripts/plotting/force_multiplot.py: plot_traces, main loop", "mrx/io.py: load_sweep", "mrx/utils.py: save_trace_dict_to_hdf5"]}
{"id": "C115", "title": "The figure and the numbers of a single run", "statement": "If solovev_single_plot.py gets a file with the ten datasets it reads, it draws over the stored iterations the stored force and the absolute changes of helicity and divergence since the first entry; with positive forces and non-negative divergence norms every force lies strictly inside the upper panel and every other value above 1e-16 inside the lower one; the ticks are the multiples of 5000 up to the last iteration, labelled in thousands; the printed p_avg is the mean over the volume of the last saved pressure, hence between its bounds. Expected but false: that it draws a run of the relaxation scripts (no run writes its file, and on the file of any run it raises KeyError: it reads divergence_B_trace, the runs write divergence_trace; on a helix it raises TypeError; without save_B it ends with NameError after the figure), that the curve labelled ||div B|| shows that norm (exactly if it is zero at the first entry), and that the printed beta is the ratio of the integral of the pressure to the energy (exactly if the volume is one or that integral is zero).", "quantifier": "all files, traces, configurations, admissible sequences and pressures; all runs of the relaxation scripts with any parameters", "why_tests_cant": "the script has no tests; what is cut off or mislabelled depends on the values of the traces.", "anchors": ["scripts/plotting/solovev_single_plot.py", "mrx/utils.py: save_trace_dict_to_hdf5", "mrx/projectors.py: Projector"]}
{"id": "C116", "title": "Periodic splines and fits outside the unit interval", "statement": "The functions of a periodic spline basis add up to 1 exactly for arguments in [0, 1]; elsewhere the sum is smaller, and more than p/n outside they all vanish; so a discrete function with equal non-zero coefficients has that constant value at a point (r and zeta in the unit interval) exactly if the poloidal coordinate is in [0, 1]. The fit of test_gvec_tokamak.py is the discrete function with the least squared misfit to the data at the points (rho, theta*/2pi, 0). Expected but false: that the bases are continued periodically, and that the tokamak fit reproduces constants (it does exactly if all theta* of the data are in [0, 2pi]: the angles are not reduced modulo one turn; at a grid point more than p/n of a turn outside every discrete function vanishes and the misfit is at least the square of the value there).", "quantifier": "all resolutions and degrees, all real evaluation points, all data grids, all coefficient vectors", "why_tests_cant": "tests evaluate periodic splines in the unit interval only; the angles of the data depend on the equilibrium.", "anchors": ["mrx/spline_bases.py: SplineBasis.evaluate", "scripts/interactive/test_gvec_tokamak.py"]}
{"id": "C117", "title": "The checks and figures of the GVEC scripts", "statement": "In test_gvec_tokamak.py and test_gvec_stellarator.py the projection error is the smallest relative error any discrete 0-form has: between 0 and 1, attained only by the projection, and 0 exactly if the function agrees with a discrete 0-form at the quadrature points; for the functions of the scripts it goes to zero for every map, with explicit first-order bounds. A rate is at least r exactly if the error is reduced by the factor (n_i/n_(i+1))^r; errors c/n^k pass the assertion exactly if k >= p+1; a passed assertion guarantees the rate p+1 in at least one step; the dashed line has rate p+1 and ends at 0.9 times the last error. In exact arithmetic the assertions on curl grad, div curl, dd2 and dd3 always pass, and those on dd0 and dd1 pass exactly if there are at most as many radial as poloidal splines and the smallest eigenvalues, which are then positive, exceed 1e-6. In the figure of the map the curves of constant radius are closed, the lines of constant angle run from axis to boundary, at evenly spaced radii and angles, and the title shows the point where the first of them starts. Expected but false: that a passed assertion on the rates means that the error decreases (it tests the mean of the rates).", "quantifier": "all admissible sequences, maps, functions, resolutions and lists of errors; all coordinate functions", "why_tests_cant": "the scripts run a few resolutions on one equilibrium; the bounds and equivalences hold for all.", "anchors": ["scripts/interactive/test_gvec_tokamak.py", "scripts/interactive/test_gvec_stellarator.py"]}
{"id": "C118", "title": "Convergence of full order", "statement": "In one direction, clamped or periodic, a function with p+1 derivatives, the last bounded by M, is within M (2H)^(p+1)/(p+1)! of a spline of degree p, where H is the width of p+1 elements; clamped, the spline has the end values of the function and its slope at 0; periodic, the coefficients of a first harmonic are a first harmonic. On every sequence (any types, polar or not, with or without Dirichlet condition, any map) a sum of products of such functions that satisfies the conditions of the sequence (differentiable on the disc if polar, zero at the radial boundary if Dirichlet) is within the sum of the corresponding product errors of a discrete 0-form everywhere in the logical cube, and its L2 projection solve(M0, P0(f)) is that close in the quadrature L2 norm. So the errors of the studies in test_gvec_tokamak.py and test_gvec_stellarator.py times the norm of the function are at most a constant depending on p alone, times n^-(p+1) and the root of the volume, for every map and every resolution.", "quantifier": "all resolutions, degrees, types, maps, all functions with p+1 derivatives, all finite sums of products", "why_tests_cant": "convergence tests compare a few resolutions on one function with a tolerance; the bound holds for all resolutions and all smooth functions.", "anchors": ["mrx/spline_bases.py: SplineBasis.evaluate", "mrx/derham_sequence.py: DeRhamSequence", "mrx/polar.py: LazyExtractionOperator", "mrx/projectors.py: Projector.zeroform_projection", "scripts/interactive/test_gvec_tokamak.py", "scripts/interactive/test_gvec_stellarator.py"]}
{"id": "C119", "title": "Gradients and Poisson solutions of full order", "statement": "In every direction the spline of C118 approximates also the derivative, with the error of order p, 2p(n-p) (clamped) or 2n (periodic) times that of the value; near the left end of a clamped direction the error of the value is of order p relative to the distance. On every compatible sequence, polar or not and for any map, a sum of products of smooth functions that satisfies the conditions of the sequence is approximated by a discrete 0-form whose discrete gradient strong_grad approximates the partial derivatives with errors of order p everywhere, on a polar sequence the poloidal one relative to the radius. Hence the solution solve(M0 dd0, P0(f)) of a Poisson problem with Dirichlet condition has a squared energy error of at most kappa (sum of the squared errors) times the volume plus the squared quadrature error of the weak equation, where kappa bounds the inverse Jacobian of the map with the poloidal component scaled by the radius. For the torus scripts, with the solution c(r^2-r^4)cos(2 pi zeta), the energy error is at most a constant depending on p and the torus alone times n^-p, for all resolutions.", "quantifier": "all resolutions, degrees, maps, all finite sums of products of functions with p+1 derivatives, all sources", "why_tests_cant": "convergence studies compare a few resolutions; the bound holds for all resolutions and all smooth solutions, and near the axis no test evaluates the gradient.", "anchors": ["mrx/spline_bases.py: SplineBasis.evaluate, DerivativeSpline.evaluate", "mrx/derham_sequence.py: DeRhamSequence.assemble_d0, assemble_dd0", "mrx/polar.py: LazyExtractionOperator", "scripts/tutorials/toroid_poisson.py: get_err", "scripts/interactive/toroid_poisson.py: get_err"]}
{"id": "C120", "title": "Figures of eigenfunctions", "statement": "The cavity scripts keep exactly the finite eigenpairs, each value with its vector, in ascending order. With k panels (the number asked for, at most the number of eigenvectors) plot_eigenvectors_grid succeeds exactly if k is a perfect square of at least 4; otherwise it raises ValueError (none), AttributeError (one to three) or IndexError. Panel i shows at every grid point of the section the length of the physical field of eigenvector i, whose components are only the first m1 entries; signs of eigenvectors do not matter; the sections are planar and the map is regular there. plot_reconstruction succeeds exactly if the radius is a valid spline, there are enough eigenvalues and the history is not empty. It draws the radius whose spectrum is computed, the first eigenfunction up to a sign that makes it non-negative on the axis, both spectra and |l - l*|/|l*|; the squares of the differences drawn add up to the loss. If the first eigenvalue is simple and its eigenfunction is not zero on the axis, all correct solvers give the same picture; if it is zero there, the sign is arbitrary.", "quantifier": "all numbers of panels and eigenvectors, all eigenvectors, maps, grids, radii, targets, loss histories, all correct solvers", "why_tests_cant": "pictures are not tested at all; the failing panel counts and the dependence on the solver's sign never occur with the numbers in the scripts.", "anchors": ["scripts/interactive/cylinder_cavity.py: plot_eigenvectors_grid", "scripts/interactive/toroid_cavity.py: plot_eigenvectors_grid", "scripts/interactive/drumshape.py: plot_reconstruction", "mrx/differential_forms.py: Pushforward, DiscreteFunction"]}
{"id": "C121", "title": "Integrals, averages and lumped masses", "statement": "Without Dirichlet conditions the coefficients all equal to k give the constant function k; ones @ M0 @ u is the integral of u, ones @ projector(f) that of f, ones @ M0 @ ones the volume, which is positive; the L2 projection and P03 keep the integral. In every sequence the projection of 1 loses exactly the squared distance between 1 and its projection, so nothing is lost exactly if the projection is 1 at all quadrature points; with Dirichlet conditions that never happens: part of the volume is always lost. The entries of the mass matrix of functions are non-negative, its row sums positive, and the matrix of the row sums is at least the mass matrix, by half the sum of the entries times the squared differences of the coefficients; without Dirichlet conditions the row sums are the integrals of the basis functions and add up to the volume. Radially clamped, weak divergences have the integral zero, and the Laplacian conserves the integral, exactly if n1 is n2 or n2+1 and the derivative splines in z are at most n2. Expected but false: they do for all resolutions.", "quantifier": "all admissible resolutions, degrees, types, quadrature orders, maps, polar or not, all coefficients, all functions", "why_tests_cant": "conservation must hold for every state, resolution and map; the tests use only n1 = n2 and do not compute integrals of states or row sums.", "anchors": ["mrx/derham_sequence.py: DeRhamSequence.assemble_M0, assemble_d0, assemble_dd0, P03", "mrx/projectors.py: Projector.zeroform_projection"]}
{"id": "C122", "title": "The demo notebook", "statement": "The map of the tutorial notebook is toroid_map(0.33, 1.1, 1), its sequence is built and admissible, its initial field is the value of a divergence-free field in force balance that crosses the boundary of the torus, and after projection it has no divergence, norm 1 and energy 1/2. The two relaxation loops of the tutorial notebook (Python loop and scan) do the same to every state: a step whose residual is a number at most the tolerance is accepted and the time step grows or shrinks by 1.01, any other is rejected, the guess is reset and the time step halved. The first relaxation does 2000 iterations with 21 trace entries, the second 2500 with 26; every field stays divergence-free and each iteration raises the energy by at most half the tolerance times its change. One iteration of run_relaxation_loop with the same settings agrees up to the time step, and agrees exactly if the step is rejected, took fewer than four Picard iterations or the time step is 0. p_avg is the volume average of the pressure, and the Shafranov shift the distance of a grid point of greatest pressure from (1,0,0). Expected but false: the iteration numbers printed for the second equilibrium are those done, the plotted forces are those of accepted fields, the number printed as plasma beta is the plasma beta, and the pressure drawn after the second relaxation is that of the relaxed field.", "quantifier": "all states, step results (NaN and infinities included), tolerances, numbers of iterations, admissible sequences, fields and pressures", "why_tests_cant": "no test runs the notebook; its relaxations take thousands of iterations on one configuration, while the loops must be right for every history of accepted and rejected steps and every domain volume.", "anchors": ["MRX_tokamak_demo.ipynb: cells 7-19, 24-41 and 63-69", "mrx/relaxation.py: TimeStepper", "mrx/utils.py: run_relaxation_loop"]}
{"id": "C123", "title": "The batch runner", "statement": "python run_scripts.py runs every file of scripts/tutorials and then of scripts/interactive whose name ends in .py, each once, in the order of the listings, from the repository's directory, whether or not the others fail; it prints the output of each under its name, and its standard error exactly if it is not empty. If a tutorial cannot be started, the ones before it have been run, none after it is, and the exit code is 1. Expected but false: the runner fails, or at least reports an error, if a script fails (return codes are ignored).", "quantifier": "all directory contents, results of scripts, effects of scripts on the computer and failures to start Python", "why_tests_cant": "no test runs the runner, and a run shows one directory and one set of results.", "anchors": ["run_scripts.py: run_all_scripts"]}
{"id": "C124", "title": "The figures of a saved solovev.py run", "statement": "`python solovev_plots.py run_name=NAME` finds the file of the solovev.py run named NAME, under that name only, and never a file of another relaxation script. From it, it draws the final pressure to p_final.pdf and, if fields were saved, saved pressure number i to p_iter_N.pdf, N being i times save_every with at least six digits, each figure in a file of its own in the directory of the run, with the spline spaces and number of degrees of freedom of the run. A tokamak run with R_0 = 1 is drawn with exactly the sequence it was computed with. Expected but false: that every run is drawn on its own domain; the map is always cerfon_map(eps, kappa, arcsin(delta), R_0), so that runs on a (non-circular) rotating ellipse - the default - and tokamak runs with another R_0 are drawn on another domain. Without a run name, with a name that is read as a number or boolean, or without the file, the script raises and draws nothing.", "quantifier": "all command lines of solovev.py that write a file, all contents of the disk, all names on the command line of solovev_plots.py, all values of eps, kappa, delta, R_0 and save_every, any number of saved fields", "why_tests_cant": "A test runs one configuration; which file is found, whether two figures overwrite each other and on which domain they are drawn must be settled for all names, numbers of saved fields and configurations.", "anchors": ["scripts/plotting/solovev_plots.py", "mrx/plotting.py: generate_solovev_plots", "scripts/config_scripts/solovev.py: run", "mrx/utils.py: save_trace_dict_to_hdf5"]}
