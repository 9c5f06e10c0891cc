# Formal model of ToBlick/mrx in Lean 4

## Layout

* `lean/Verif/Jax.lean` - the NumPy/JAX primitives the code relies on.
* `lean/Verif/Model/*.lean` - model, one file per source file; every definition cites file and lines.
* `lean/Verif/Spec/*.lean` - small independent specifications (textbook B-splines, ...).
* `lean/Verif/Proofs/*.lean` - helper lemmas.
* `lean/Verif/Props/*.lean` - the property theorems and non-vacuity examples.

## Trusted base

* Lean 4.33.0 kernel; axioms at most `propext`, `Classical.choice`, `Quot.sound`.
* Mathlib definitions (reals, matrices, derivatives, trigonometric functions).
* Faithfulness of the model to the source, as cited.
* Floating point is idealised as exact arithmetic in an ordered field / the reals. NaN and infinities are
  modelled only where they drive control flow (time stepper loop).
* JAX semantics: `x[i]` wraps negative indices once and then clamps; `dynamic_slice` clamps its start;
  `unravel_index` is mixed radix with clipping; `isclose(a,b)` is `|a-b| <= 1e-8 + 1e-5 |b|`; `vmap`, `jit`, `scan`, `lax.map`
  do not change values; `jnp.meshgrid` uses 'xy' indexing; `while_loop` is iteration while the condition holds.
* `jnp.linalg.solve(A,b)` is `A^-1 b` for nonsingular `A`; `jnp.linalg.pinv` satisfies the Penrose equations.

## Plan per property

| id | property | model and proof |
|---|---|---|
| C01 | Clamped B-splines form a partition of unity | Model SplineBasis line by line (knot vectors as lists, JAX indexing). Refine `_p_spline` on slices to the textbook Cox-de Boor recursion with a/0=0 (Spec/BSpline), induct on the degree. |
| C02 | Periodic B-splines form a partition of unity | Same refinement, wrapped sum over n+p textbook functions. |
| C03 | B-spline values are between 0 and 1 | Induction on degree for non-negativity; upper bound from C01/C02. |
| C04 | B-splines have local support | Induction on degree; counting indices around the active knot span. |
| C05 | Clamped splines interpolate at the end points | Induction on degree with p+1-fold end knot. |
| C06 | Periodic splines agree at both ends of the period | Translation invariance of the textbook recursion by knot shift n. |
| C07 | DerivativeSpline gives the derivative of SplineBasis | HasDerivAt of the textbook recursion by induction on degree away from knots; refine DerivativeSpline. |
| C08 | DerivativeSpline is continuous up to the right end point | Exact domain (iff in the index): right at x = 1 exactly for i < n-3; negations for the last two. |
| C09 | SplineBasis accepts exactly the documented parameters | Model constructor with Except; case analysis. |
| C10 | Tensor-product bases are products and inherit partition of unity | Mixed radix arithmetic + product of sums. |
| C11 | Composite quadrature has interior points and positive weights | Model composite_quad with list of knots; induct over elements. |
| C12 | Gauss tables integrate polynomials of degree <= 2k-1 | Whole table over Q by kernel evaluation, lifted to all polynomials and intervals by linearity. |
| C13 | Trapezoidal rule is exact for constants and has uniform points | List induction. |
| C14 | The 3-D quadrature rule is the tensor product of 1-D rules | Model meshgrid + ravel; Fubini for finite sums. |
| C15 | Quadrature requests outside the supported range are rejected | Exact domain (iff): requested rule exactly for p >= 1, k <= 10; what is returned otherwise. |
| C16 | Form index ravel/unravel are inverse bijections | Mixed radix arithmetic, omega/Nat.div lemmas. |
| C17 | Dimensions of the form spaces satisfy the Euler characteristic | ring over Int. |
| C18 | Basis functions of a form have exactly one active component | Case analysis. |
| C19 | Quadrature-point getters agree with direct evaluation | Unfold both sides; ravel order of QuadratureRule. |
| C20 | Tabulated exterior derivatives are grad, curl and div of the basis | True only under size conditions: characterised exactly, per basis function (unisolvence separates the wrong tables from the right ones; uniqueness of derivatives), + negation witness. |
| C21 | inv33 inverts every well-conditioned 3x3 matrix | field_simp on explicit cofactors. |
| C22 | Pushforward and Pullback are mutually inverse | Matrix algebra with C21. |
| C23 | Pairings of k-forms with (3-k)-forms are invariant under the map | Matrix algebra. |
| C24 | curl(grad f) = 0 and div(curl v) = 0 | Second derivative symmetry from Mathlib (ContDiff). |
| C25 | Metric tables used in assembly are mutually consistent | Exact domain (iff): |J| >= 1e-5; table stored as zero below. |
| C26 | Boundary operator is an orthonormal selection of interior dofs | Row-to-column index map, injectivity, omega. |
| C27 | Boundary operator for vector fields (k = -1) keeps the interior dofs | Exact domain (iff): no left-constrained direction. |
| C28 | Polar extraction yields single-valued functions on the axis | Explicit element function; sums over columns. |
| C29 | Polar extraction operators have consistent sizes for every axial basis type | Exact domain (iff): k in {0,1,-1} or axial basis not clamped. |
| C30 | Extraction commutes with the exterior derivative | Incidence matrices; entrywise case analysis. |
| C31 | Mass matrices are symmetric positive (semi-)definite | Matrix algebra on assembled sum of squares. |
| C32 | Weak operators are the adjoints of the strong ones | Matrix algebra with inverse of mass matrices. |
| C33 | Discrete exactness: curl grad = 0 and div curl = 0 | Incidence factorisation D_k = M_{k+1} G~ + nonsingularity. |
| C34 | Discrete Hodge Laplacians are symmetric positive semidefinite | Quadratic form algebra. |
| C35 | The Leray projector projects onto divergence-free fields | Moore-Penrose axioms for pinv as hypothesis; linear algebra. |
| C36 | L2 projectors reproduce discrete functions | Unfold projector; transformation rules cancel. Best approximation for all four degrees by Pythagoras in the mass inner product. |
| C37 | Lazy matrices: where they equal the assembled ones | Unfold both; derivative matrices iff the sizes of C76; below the Jacobian bound the two weights differ by a positive definite matrix at the points between the cut-offs, so the matrices agree iff all fields vanish there (Props/LazyExact); local splines cover every point (Proofs/Cover). Dispatch and shapes with arrays that carry their sizes (Model/LazyDispatch). |
| C38 | Cross-product projections compute the physical cross product | Pointwise 3x3 identities + finite sums. |
| C39 | evaluate_at_xq and integrate_against are adjoint | Exchange of finite sums. |
| C40 | picard_solver always terminates within max_iter | Loop with fuel; measure. |
| C41 | What the flag of picard_solver says | Loop invariant; two cases of the flag and exact domain (Props/ExactIff4); NaN behaviour in Props/NaN over the extended value type. |
| C42 | Picard iterates preserve convex invariants | Loop invariant. |
| C43 | newton_solver solves affine problems in one step and stops at roots | Loop unfolding. |
| C44 | invert_map terminates and its error flag is sound | Loop with fuel. |
| C45 | div B = 0 is preserved by the relaxation loop | Invariant through residual, Picard loop, relaxation loop. |
| C46 | Converged steps do not increase magnetic energy | Quadratic form algebra with C38 and C35. |
| C47 | Ideal steps conserve magnetic helicity | Exact balance identity for arbitrary states; local polynomials (power basis, ℓ1 norms) give integration by parts with the code's rounded Gauss tables up to an explicit `ibpEps` (a multiple of 3e-16, and 0 for linear splines with at most two points); triple sums; loop theorem. `dd1` is singular unless polar and Dirichlet: negation proved. |
| C48 | TimeStepper Picard loop ends with a small residual or at the iteration limit | Loop with extended reals (nan/inf). |
| C49 | Rejected time steps are side-effect free | State machine with arbitrary oracle for step outcomes. |
| C50 | Trace lists stay aligned and follow the save schedule | State machine invariant. |
| C51 | The perturbation is applied once, if its step is accepted | Loop simulation with and without perturbation; both cases (accepted or not) proved. |
| C52 | Where the relaxed field is after the relaxation | Heap model; exact domain by frame theorem, contents of the trace by C50. |
| C53 | The discrete Hessian is symmetric | Bilinear algebra. |
| C54 | What runs in one process share | Heap model with references; sharing proved for every pair of runs. |
| C55 | parse_args turns key=value into typed values | List Char model; exact raising condition. |
| C56 | update_config precedence | Association-list model. |
| C57 | load_sweep returns exactly the runs that do not contradict the reference | Characterisation of the result by Agrees; findings. |
| C58 | Saved iteration counts match saved traces | Negation + partial. |
| C59 | Toroidal map is periodic with positive Jacobian | Real analysis on closed form. |
| C60 | approx_inverse_map inverts the toroidal map | arctan2 via Complex.arg. |
| C61 | cerfon_map has the documented Miller-type closed form | Trigonometric identities. |
| C62 | rotating_ellipse_map rejects bad parameters and has field-period symmetry | Trigonometric identities. |
| C63 | Simple maps have the stated Jacobians, the helical map the stated frame | Determinants by HasDerivAt; helical frame by iff. |
| C64 | GVEC interpolation and stellarator map use the same angles | Exact domain (iff): axis of rotation or zeta multiple of 4 pi. |
| C65 | Plot grids keep coordinates and values aligned | Index arithmetic; exact domain (iff): nx = ny in the transposed reading. |
| C66 | Which plane crossings are reported | Real arithmetic; exact domains by iff, findings outside them. |
| C67 | unique_id has the requested length and alphabet | List lemma. |
| C68 | epoch_time rounds the time down | Int.floor model. |
| C69 | The boundary fit minimises a loss that vanishes exactly on the flux surface | Sum of squares. |
| C70 | interpolate_B_from_GVEC excludes exactly the points near axis and boundary | Exact domain (iff): exclude_axis_tol = 1e-3. |
| C71 | Which points of a Poincare section are true crossings | Wrapped and unwrapped segments compared by floors and fractional parts (Props/Crossings): exact conditions for right, invented and missed crossings and for the reported point. |
| C72 | set_axes_equal equalises the axes without cutting off data | Interval arithmetic. |
| C73 | Harmonic fields, potentials and solvability follow the topology of the domain | For every resolution: the operators in terms of arrays (AllSizes, AllBetti2), Künneth-type splitting by the two angles (AllBetti3) into radial complexes whose kernels and cokernels are computed (AllBetti); Euler characteristic for the last number; Betti numbers in Spec/Topology; `codeBetti` is the resulting table. |
| C74 | Energy, norms and helicity measure the physical field | L2 identities of C31 + Hodge decomposition. |
| C75 | The pressure diagnostic solves the pressure equation | dd0 invertibility of C73; NaN model for the force-free branch. |
| C76 | Strong operators are the exterior derivatives of the discrete fields | Incidence form of the operators; true derivatives as differences of coefficients by summation by parts (`tfield0..2`); independence of the tabulated splines turns pointwise exactness into equality of arrays, test profiles give necessity of the sizes (Props/ExactIff2). |
| C77 | Initial fields of the relaxation scripts | Leray projection as orthogonal projection in L2; eigenvectors through the specification `IsGEigh`; loop induction. |
| C78 | Poisson tutorials solve the discrete Poisson problem | Galerkin orthogonality; eigh through `IsEigh` (Spec/Eigh.lean); Penrose equations. |
| C79 | Computed spectra are those of the Hodge Laplacians | Self-adjointness in the mass inner product, Betti numbers of C73, complex eigenvalues by the Hermitian form. |
| C80 | Assembly methods in any order and any number of times | The object as a record of optional attributes, each method as a list of attribute-reading and -setting statements; invariant over call histories, exact raise condition. |
| C81 | GVEC interpolation is the best discrete fit to the data | Least-squares systems as assembled (ravel order, valid points, E2); misfit of the system = misfit on the grid; lstsq by its specification (minimal misfit, minimal norm), shown satisfiable. Fails for polar or Dirichlet sequences (negation proved). |
| C82 | Picard iteration converges for contractions | Loop invariant `residual ≤ q^k R` with `q = 1 - min(1, t/(R+1e-12))(1-L)`; total correctness of the while loop. |
| C83 | The assembly loops compute the sums | `lax.scan`, `vmap` and einsum modelled step by step (Model/Scan.lean); refinement of the sums of Model/Assembly.lean by induction on the scan. |
| C84 | The manufactured solutions solve their problems | Model/Manufactured.lean; Laplacian of functions of `(ρ, w)` in Cartesian coordinates by the chain rule (Spec/Laplacian.lean defines it by iterated partial derivatives). False for the vector problem as coded: negation proved. |
| C85 | The analytic initial fields are magnetic fields | Partial derivatives of the Cartesian components, by the rules of calculus; flux function and pressure given explicitly. |
| C86 | The basis functions span exactly the spline space | Marsden's identity by induction on the degree from the Cox–de Boor recursion (Proofs/Marsden.lean); converse by counting: the pieces of a smooth piecewise polynomial differ at each break by a multiple of `(x-ξ)^p`, and the combination with matching pieces is constructed element by element (Proofs/SplineSpace.lean). Spec/SplineSpace.lean defines splines by pieces and derivatives only. |
| C87 | Refinement nests the spline spaces | From C86: the coarse pieces are also pieces on the fine mesh. Negation for a non-multiple refinement. |
| C88 | Coefficients bound the function | Non-negativity and partition of unity; entries of the extraction matrices are non-negative (`1/3 ± …` of the ξ table by cases of the angle). |
| C89 | L2 projection reproduces splines pointwise | C86 gives coefficients, the extraction without boundary condition is onto (C26), C36 gives back the coefficients; quadrature points lie in the cube. |
| C90 | Drum spectra (`scripts/interactive/drumshape.py`) | Model/Drum; Cholesky and eigh by their documented properties (existence proved); min-max comparison of generalised eigenvalues (Proofs/MinMax); Jacobian matrix of the drum map in block form for scaling; negation for small drums; the exact scaling condition by rigidity of ordered spectra under the trace (Props/DrumScale). `plot_reconstruction` is C120, `setup_target_shape` and the loop C95. |
| C91 | Rotational transform of a traced line | Model/Iota; `jnp.unwrap` as partial sums of corrected differences; a lift with steps below half a turn is unique; perturbation bounds for the geometric angle (star-shaped sections, circular torus); unit speed by the chain rule; event function and signed radius by trigonometry. The ODE solver is not modelled: a trace is any list of points, the right-hand sides are. |
| C92 | What plots made from a saved run show | Model/SavedPlots (domain, file names, guard, seeds) against the loop model; proved where true, the rest by exact counterexample families. |
| C93 | Island perturbation | Model/Perturbation (the field of the scripts) and the `perturb` step of the loop model; trigonometry, exactness of the projection, quadrature points of the constant direction. |
| C94 | Cavity eigenvalues | Model/Cavity; the Bessel root tables of scipy are a parameter; counting over signed mode numbers; the saddle point problem by testing with gradients, spectrum from C73 and C79. |
| C95 | Drum target and optimisation history | Model/DrumTarget; the optimiser is a parameter; normal equations with a definite mass matrix (unisolvence of the quadrature points), induction over the steps. |
| C96 | Scripts ask only for what is there | Model/ScriptCalls: programs as lists of attribute reads and calls with Python names; a check by names proved equivalent to running the program, then evaluated for the scripts; induction over programs. |
| C97 | Rigid motions and changes of units | Spec/Similarity: rotation, scaling, shift of the map. Chain rule for the metric, then scaling through assembly, inverses, cross products; a simulation relation through the Picard loop and the relaxation loop by induction. |
| C98 | Toroidal symmetry is preserved | Spec/Symmetry: cyclic shift of the fastest index, symmetric map and field. Tables, quadrature points, metric, extraction are invariant under the shift, hence all matrices commute with a permutation (also inverses, pseudo-inverses, least squares by uniqueness); induction over the loops. Exact domain from the all-sizes description of the coded differences (C76). |
| C99 | A relaxation makes progress | Rate of change, accepted sets and reported forces as small specifications (Props/Progress, Props/ProgressRun). First Picard residual is dt times the rate; induction over blocks of rejections. Energy balance (C46) with Cauchy-Schwarz gives norm growth and dissipation; cross products are bilinear (C38), so the rate is a cubic polynomial, Lipschitz on balls, and Picard contracts; lower bound of dt, share of accepted steps and dissipation together bound the number of iterations. |
| C100 | Approximation | Resolution of a direction in Spec/Approx. Schoenberg operator: coefficients are values at Greville points (clamped), support centres (periodic, derivative splines with their scaling); convex combinations from C01-C03, support from C04, linear exactness from C86. Tensor products by nesting; coefficient arrays are reached through C26/C28. L2 projections by best approximation (C36). |
| C101 | Poisson error | Error identity (Galerkin orthogonality from C78's weak form), Cauchy-Schwarz for the quadrature product, norm equivalence in finite dimension for the Poincare constant, Riesz representative for the consistency error. Gradient approximation: coefficients at Greville points/support centres, differences of neighbours (C76 incidence) are derivative values by the mean value theorem, then convex combinations as in C100. Not covered: gradient approximation at a polar axis. |
| C102 | Trace figures | Model of trace_plot as the data handed to matplotlib; composition with the recorded traces of C58; path arithmetic for the directories. |
| C103 | Coloured cuts and contours | Model of the drawn vertices, values, colour numbers, limits and names; order and extremum arguments on lists, index arithmetic of C65. Rendering, styles and contour levels are not modelled. |
| C104 | Vector Poisson script | Model of the script's matrix; comparison with M2 dd2 by matrix algebra, kernel by energy and rank, units by the scaling theorems of C97. |
| C105 | Resolution and the metric cutoff | Smallest node of the tables, position of the innermost points, Jacobian determinants of C59, C61-C63, cutoff of C25. The helical and GVEC maps are not covered. |
| C106 | Command line to sequence | Model of the first half of `run`; values through the precedence theorem of C56, admissibility through C105. The helical map is treated in C107. |
| C107 | Helical map | Explicit derivatives of the axis (C63), inflections by algebra, determinant of a tube around a curve, compactness for thin tubes. How thin is not made explicit. |
| C108 | Relaxation scripts, second half of `run` | The object-level loop of C50/C53 (`pyRun`) inside the script: the state object the script holds is not changed by the loop; then C50, C77, C106. Clock, random numbers and library functions are parameters; plots after saving are not included. |
| C109 | Helicity and energy over whole runs | Sum of the one-step bound of C47 over the loop: the electric field is bounded on bounded sets (norm bounds of multilinear maps on finite-dimensional spaces), the field is bounded by C99, the time by the sum of accepted steps; then C99's bound of helicity by energy and its convergence theorem. No model additions. |
| C110 | Convergence studies | `Model.Studies`: the two passes as a recursion over the list of index-value pairs with a call counter (outcome of a call may depend on the counter; clock readings 2c and 2c+1), the three `get_err`, the figures. Table facts by induction over the passes (distinct indices in range); completion and failure by an exact characterisation of the first failing call; the tutorials from C105 (admissible), C78 (well posed, relative error) and positivity of the exact solutions at quadrature points. |
| C111 | Command-line Poisson study | `Model.ToroidScript`: main as a function of argv and a file system (path to lines), int() and the number format as parameters; `get_err` with q = p. Case distinction for the ends; decimal strings have no underscore, so paths are injective; induction over runs; the numbers from C105, C78, C73; degree 1 from `C31_even_one_point` (the function with alternating coefficients along the torus vanishes at all quadrature points; it is in the polar space because the extraction commutes with toroidal shifts). |
| C112 | Poincaré scripts and runs | `Model.PlotScripts`: the scripts' path, configuration look-ups and sequence as functions of a file system holding `RunFile`s (C107's model of what a run writes). Look-ups in the run's dictionary follow its construction (defaults, device preset, command line); paths are compared as strings; a wrong domain is shown by a point whose image differs. |
| C113 | Poincaré sections | `Model.Panels`: seeds, get_crossings (integration to the next event as a parameter), gaps, limits, colour places, loop over the lines with the exception of Normalize. Lists: each crossing is below gap_left iff it is negative (0.95 of the greatest negative value); percentile is monotone in q (interpolation in the sorted list); permutations for the order of the lines; C91's plane for the isometry; `truncate_colormap` as a list of places in a map of 256 colours. |
| C114 | Sweep figures | `Model.Multiplot`: plot_traces as a function to curves and legend entries (or an exception), the script as a list of results up to the first exception. sorted(set) is Finset.sort; colour index floor(256 i / k), line style i mod 5; pigeonhole for the iffs; load_sweep and run files from C57, C108; savedIterations (C50) for the abscissae. |
| C115 | Figure and numbers of a single run | `Model.SinglePlot`: the script as a function of the file system to (figure, printed numbers or exception). Max/min by induction over the trace; ticks by ceil; p_avg through C36 (load vectors) and positivity of weights and Jacobian; runs through C108/C112. |
| C116 | Periodic splines outside [0,1] | Sum of the periodic functions = sum of the unfolded B-splines over the supports meeting the point; strict inequality by positivity of the missing spline. Fit: `IsLstsq` and the sum over the raveled grid. |
| C117 | Checks and figures of the GVEC scripts | `Model.GvecScripts`. Error through the L2-orthogonality of the projection and the approximation bounds of C101; rates through monotonicity of log; spectra through C73/C79; exactness through C33; curves by list indexing. |
| C118 | Convergence of full order | `Spec.SmoothDir`: functions with derivatives and the error. The de Boor-Fix functionals (`Proofs.HighOrder`) reproduce Taylor polynomials by Marsden's identity and are bounded, so the error is that of Taylor's theorem on the support. At the ends they give value and slope, on a periodic grid they commute with translations, hence the conditions at the axis and boundary hold; tensor products, `zeroform_range`, best approximation. |
| C119 | Gradients and Poisson solutions of full order | `Spec.SmoothDir` (`slopeOrder`, `GradTerm`, `axisScale`). Derivatives of the quasi-interpolant: differences of de Boor-Fix functionals are those of the derivative on the shifted knots (`Proofs.HighSlope`); near the axis the difference of the quasi-interpolant to the Taylor polynomial at 0 is bounded by a multiple of the Greville points. `strongGrad_tensor` (C76) turns differences of coefficients into the discrete gradient; C101 quasi-optimality; the metric of the torus is diagonal. The quadrature error `K` of the weak equation stays in the bound. |
| C120 | Figures of eigenfunctions | `Model.EigenPlots`: a figure is the data handed to matplotlib. Perfect squares through `Nat.sqrt`; entries of the grid through `meshPoints`; the pushforward through C21; uniqueness of eigenvectors of simple eigenvalues; non-vacuity with a drum that is free at its boundary (C73, C76). |
| C121 | Integrals, averages and lumped masses | `Props.Averages`: partition of unity (C28) gives the constants, quadrature the integrals; non-negative splines the entries; the exact domain of the conservation from that of the gradient of constants (C76). Non-vacuity on a polar torus and a box. |
| C122 | The demo notebook | `Model.Demo`, `Props.Demo`, `Props.Demo2` (set-up): case analysis of one iteration, induction over passes and iterations; energy and divergence from C45/C46; the volume average from the quadrature. The failing expectations are negated with concrete runs and maps of different volume. Field lines and colours are not modelled. |
| C123 | The batch runner | `Model.RunScripts`, `Props.RunScripts`, `Props.RunScripts2` (whole text, exceptions): listing and running are arbitrary functions of an arbitrary state of the computer; induction over the listing. Printed run times are left out. |
| C124 | The figures of a saved solovev.py run | `Model.SolovevPlots`, `Props.SolovevPlots`: names by cancellation of lists and the value of padded decimals; the sequence by case analysis of the build (the map does not enter the spaces); domains from C92. Curves and Poincaré plots are in C92 and Model/Figures. |

Not expressible: performance, floating-point rounding error bounds of the assembled matrices, quality of plots,
and autodiff internals (a `jax.jacfwd` is taken to be the mathematical derivative).

## What is modelled

Line by line (each definition cites its lines): all of `spline_bases.py`, `quadrature.py`, `differential_forms.py`, `boundary.py`, `polar.py`,
`derham_sequence.py`, `projectors.py`, `nonlinearities.py`, `lazy_matrices.py`, `iterative_solvers.py`, `relaxation.py`, `mappings.py`, `io.py`;
of `utils.py` the linear algebra, `assemble`/`evaluate_at_xq`/`integrate_against`, the trace dictionary, `run_relaxation_loop`,
`save_trace_dict_to_hdf5` (dataset names and shapes), `update_config`; of `plotting.py` the grids, plane intersections, the crossing selection of
`poincare_plot`, `set_axes_equal`; of `gvec_interface.py` the sampling points and the exclusion of points.

Not modelled: matplotlib and plotly themselves (which data the functions of `mrx/plotting.py` hand to them is modelled in Model/Figures.lean); HDF5 as a file format (datasets are a finite map); the ODE integration of field lines
(diffrax) - a trajectory is any list of points; the optimiser (optimistix) of `lcfs_fit` - only its loss; xarray/GVEC evaluation; printing;
`is_running_in_github_actions`; `Model.SolovevPlots`: solovev_plots.py and generate_solovev_plots up to the pressure figures (mrx/plotting.py:1294-1346); of the scripts and tutorials the set-up of the initial fields, the Poisson solves, the error norms and the eigenvalue problems (Model/Scripts.lean), the turn counting and right-hand sides of the field line plots (Model/Iota.lean), the choices made by `generate_solovev_plots` (Model/SavedPlots.lean), the drum spectra (Model/Drum.lean), the island perturbation (Model/Perturbation.lean), the cavity eigenvalue problem (Model/Cavity.lean), the target shape and optimisation loop of `drumshape.py` (Model/DrumTarget.lean), the order in which the scripts call and read a sequence (Model/ScriptCalls.lean), how everything assembled from the map changes with rotations, shifts and units (Props/Units*.lean), the action of toroidal shifts on everything assembled and on runs (Props/Symmetry*.lean), long-time behaviour of `run_relaxation_loop` (Props/Progress*.lean), `Model/Figures.lean`: the data drawn by trace_plot, plot_torus, plot_crossections, plot_crossections_separate, pressure_plot, plot_scalar_fct_physical_logical, plot_twin_axis and converge_plot, `Model/Scripts.lean` also has the matrix and error of cylinder_vector_poisson.py., `Model/RunSetup.lean` has the first half of `run` of solovev.py, iter_islands.py and stell.py (configuration, map, sizes, sequence, assertion on the Jacobian). Numbers are real; a configuration with several mistakes may raise another exception than in Python., `Model/RunFile.lean`: `run` of `solovev.py` (46-117), `iter_islands.py` (34-139), `stell.py` (34-136)., `Model.Studies`: run_convergence_analysis, plot_results (data only) and get_err of the three Poisson tutorials; the loop and reference lines of cylinder_vector_poisson.py., `Model.ToroidScript`: get_err and main of scripts/interactive/toroid_poisson.py and the command lines of the CI step that runs it (jnp.linalg.cond, int() and number formatting are parameters)., `Model.PlotScripts`: the set-up parts of scripts/plotting/{iter,stell,helix}_plots.py and scripts/plotting/solovev_poincare.py (paths, configuration, map, sequence, list of figures), up to the field line integration., `Model.Panels`: seeds, get_crossings, gap and limit detection, colours and plotting loop of scripts/plotting/{iter,stell,helix}_plots.py and solovev_poincare.py (the diffrax solve is a parameter; colour maps are indices 0 to 255)., `Model.Multiplot`: scripts/plotting/force_multiplot.py (the text of labels is not modelled; entries of configurations that are not finite numbers count as missing), `Model.SinglePlot`: scripts/plotting/solovev_single_plot.py (without the pictures of the pressure in lines 177-192), `Model.GvecScripts`: scripts/interactive/test_gvec_tokamak.py and test_gvec_stellarator.py (printing and the appearance of figures are not modelled; the fit of the stellarator map and field is that of Model.Gvec), `scripts/interactive/cylinder_cavity.py:71-83, 242-245, 289-369`, `toroid_cavity.py:58-196` and `drumshape.py:204-406` (figures: `Model/EigenPlots.lean`; fonts, colours and files are left out)., `Model.RunScripts`: run_scripts.py, `Model.Demo`: the set-up, relaxation loops, traces and printed diagnostics of MRX_tokamak_demo.ipynb; not the rest; the other cells of the notebook; deprecated scripts.

Simplifications, each also stated at its definition: floats are exact (ordered field or reals), NaN/Inf as extra values only where control flow
depends on them; shapes are Nat; `vmap`/`scan`/`lax.map` are pointwise maps and sums; `jacfwd` is `fderiv`; `solve(A,b)` is `A^-1 b` with Mathlib's
`A^-1 = 0` for singular `A` (theorems that depend on it prove invertibility or say so); `pinv` is any matrix satisfying the Penrose equations; `lstsq` any
function; `eigh` any pair satisfying the (generalised) eigenvalue equations with ascending eigenvalues (Spec/Eigh.lean; existence proved); `% 1` is `Int.fract`; `arctan2` is `Complex.arg`; the DerivativeSpline of a degree-0 basis is rejected (the code builds it but cannot
evaluate it).

Main standing hypotheses: `Admissible` (Proofs/Setting.lean: parameters for which the constructors succeed, enough quadrature points, Jacobian determinant
at least 1e-5 at the quadrature points) and `Compatible` (Proofs/Exact.lean: sizes for which the tabulated derivatives are right, see C20/C76). Both are
met by a concrete sequence (`Admissible.example`, Proofs/Exists.lean), and the excluded cases are shown to fail where they do.

## Findings: properties the code violates (negations proved)

* C01 `SplineBasis(1, 1, "clamped")` is not a partition of unity; with more than about 1e5 elements `isclose` confuses neighbouring knots.
* C08 the derivative splines are wrong at x = 1 for every clamped basis (two last functions).
* C15 an unsupported quadrature order silently gives the 10-point rule; degree 0 gives an empty rule.
* C20/C76 the getters compare radial and axial indices with `nt - 1`: for nr != nt the derivative of the last radial function is tabulated as zero (or the wrong
  one is), for clamped zeta likewise; exactly nr = nt and nz <= nt make all tables right (`C20_tables_iff`), and exactly nz <= nt and (nr = nt, or Dirichlet and nr <= nt or nt = 1) make the discrete operators right (`C76_*_iff`); gradients of constants do not vanish unless (nr = nt or nr = nt+1) and dz <= nt.
* C31 too few quadrature points make the mass matrices singular; `q = max(ps)` (used by all scripts) is enough for degree >= 2 and two or more elements, not for degree 1.
* C25 the inverse metric is set to zero when det G < 1e-10 (small domains).
* C27 Dirichlet extraction of vector fields (k = -1) drops the wrong dofs. C29 polar 2- and 3-form extraction is singular for a clamped axial basis.
* C37 `LazyDerivativeMatrix.matrix()` of 3-forms raises `TypeError` unless both forms have equally many basis functions: the zero matrix is created with its sizes swapped (`C37_derivative_threeform`); for vector fields `assemble` returns `None` (`C37_derivative_vector`).
* C37 lazy mass matrices differ from the assembled ones when the Jacobian is tiny (map x/100: assembled M1 = 0, the lazy one is positive definite). C41 `picard_solver` reports convergence of an iterate it does not return.
* C43/C44 reported residual belongs to the previous iterate; the returned point of `invert_map` is unchecked.
* C47/C73/C75 `helicity`, `harmonic_component`, `pressure` solve singular systems unless polar and Dirichlet (pressure: Dirichlet); the force-free pressure is NaN if B vanishes
  at one quadrature point. With more radial than poloidal splines (nr > nt) both systems are singular on polar Dirichlet sequences too, whatever the map
  (`C73_polar_dirichlet_singular`), because of the C20 index bug. All numbers of harmonic fields for all sizes: `C73_harmonic_dimensions`; for example a polar
  sequence without Dirichlet conditions has spurious harmonic 1-, 2- and 3-forms as soon as nr != nt (`C73_topology_iff`), so that `dd3` (mixed Poisson, Leray) is singular.
* `scripts/config_scripts/hopf.py` calls `assemble_grad_0`, `E2_0`, `P2_0`, none of which exists in /repo/mrx: the script cannot run (not modelled).
* C48 a tolerance >= 1 makes no step at all. C51 a perturbation due at a rejected iteration is lost; the recorded force is stale. C52 the caller's state is not the relaxed one.
  C53 the Hessian has an extra factor M2. C54 default trace dictionary is shared between runs; default start time raises.
* C55 negative integers become floats, superscript digits raise. C56 presets keep boundary type. C57 missing keys match, extra keys are rejected, arrays raise. C58 sweep axis too short; double file extension.
* C62 rotating ellipse degenerate for kappa <= 0 or >= 2. C63 helical frame not orthogonal. C64 GVEC map covers half the toroidal angle. C65 2d/3d cut grids misaligned for nx != ny.
* C66 plane value 0 finds exact hits only; an in-plane segment gives NaN; threshold depends on the scaling of the normal; `intersect_with_plane` normalises the normal but not the offset;
  vertex hits are missed; the quadratic version can report a wrong crossing. C70 `exclude_axis_tol` is ignored. C71 wrap-around creates spurious crossings.
* C77 the harmonic start of `solovev.py` is stationary: unless an iteration is saved at 1 only iteration 0 is recorded, and the report of the average time per iteration
  divides by zero (ZeroDivisionError) before anything is saved. `TimeStepper.init_state` always raises (there is no `self.State`).
* C81 `interpolate_map_from_GVEC` returns a function that raises on every evaluation when the
  sequence is polar or has Dirichlet boundaries: the coefficient vector has `Λ0.n` entries, `E0` fewer rows (C81_map_usable_iff).
* C84 `test_cylinder_vector_poisson.py` and `scripts/interactive/cylinder_vector_poisson.py`: `[0, u_theta, 0]` and `[0, f_theta, 0]` are read by `P2` as Cartesian components; as such
  `u` does not solve the problem (`-Δu_y = f_theta - (1 - r)² cos 2πz`). The comments of `mixed_polar_poisson.py` have the wrong sign of 1/48 (the code is right).
* C85 (by reading) `hopf.py` uses names that no longer exist (`Seq.M12` before assembly, `assemble_grad_0`, `E2_0`): it raises. `stell.py` reads `CONFIG["n_fp"]`; the documented key is `nfp`.
  The boundary of `iter_islands.py` is no flux surface of its initial field (C85_boundary_is_not_a_flux_surface).
* C90 drums whose radius coefficients are all at most 1e-3 have a zero stiffness matrix and only zero eigenvalues (metric cut-off 1e-10); with more radial than poloidal splines the
  lowest frequency of a fixed drum is 0. By reading: the floor 0.01 of the random start does not keep the metric above the cut-off next to the axis.
* C91 beyond half a turn per save point the direction is reported reversed (C91_aliasing). In the helical domain the reported rotational transform is the number of turns of the helical
  axis about the mean point, `nfp` per toroidal turn, whatever the field line does (C91_helical_axis_counted). By reading: the scripts call `helical_map(n_turns=...)`, which is no
  parameter of it (TypeError); the sort key of the seeds uses `cos(x0s[:,1])` without `2 pi` (no effect).
* C92 `generate_solovev_plots` plots every run on the tokamak domain with major radius `R_0`, which the run itself ignores; file names claim too early iterations once a save was
  skipped; the Poincare section is never drawn (contradictory guards); its seeds are scrambled by `x0s.T.reshape`. `force_multiplot.py:133` has the same label defect.
* C93 in axisymmetric runs (`n_zeta = 1`) the only toroidal quadrature point is a zero of `sin(2 pi n zeta)`: the projected island perturbation is exactly zero and is divided by its norm
  (C93_axisymmetric_lost); in floating point rounding errors are scaled up to `pert_strength`. A mode number 0 gives the zero field (C93_zero_mode).
* C94 `m_values` with a non-positive entry are accepted if another entry is positive (index -1 selects the last root; the documentation promises a ValueError). The saddle point pencil is
  singular if a scalar has no gradient (no Dirichlet conditions, or more radial than poloidal splines). By reading: `check_eigenvalues` is one-sided and never called.
* C95 the parameter `e` is called eccentricity but is the ratio of the axes (C95_eccentricity). The printed final loss and the last point of the loss curve belong to the shape one step before the
  final one; the loss of the start is recorded twice (C95_final_loss_stale, C95_history).
* C96 `hopf.py` calls `Seq.assemble_grad_0`, which no longer exists, and eight other names of an earlier interface: it always raises (C96_hopf, C96_hopf_names).
* C97 results depend on the unit of length: every device, measured in large enough units, has zero inverse metric and zero 1-form mass matrix (C97_small_units); the two terms of the Hessian have different units, because of an additional mass matrix (C97_hessian); `(1 + dd2)⁻¹` regularises over length 1 (C97_regularisation); the Picard residual starts at 1, whatever the units of the field.
* C98 with more toroidal than poloidal splines an axisymmetric device is not treated symmetrically: the wrap-around of the toroidal differences uses the number of poloidal splines and singles out one toroidal position (C98_domain_iff). For a field-period number that is not an integer the helix map is not carried to itself by one turn (C98_helical_open).
* C99 with `solver_critit <= 1` and `dt_factor > 1` every accepted step shrinks the time step, so a run covers a bounded time however long it runs. With `save_every > 1` the force is tested only at recorded iterations, so a run can pass below the force tolerance without stopping.
* C102 trace_plot draws div - div[0] under the label |div B|, and writes the energy figure beside the directory when filename lacks the trailing slash. C103 pressure_plot leaves ny = 64 while nx = resolution = 128, so rows and columns of its contour grid are not coordinate lines; its outline is always the section at zeta = 0; plot_crossections_separate fails for a single cut; plot_scalar_fct_physical_logical drops the physical panel for rt, r_t, rtheta, r_θ and tests for a name (r_x_theta) it has already rejected.
* C104 `cylinder_vector_poisson.py` uses the strong curl where the matrix M2 times it is needed (the script's own comment asks which one is right), so its curl and divergence parts are in different units. C105 the scripts' guard min(J_j) > 0 does not detect determinants below the cutoff 1e-5 of inv33.
* C106 `solovev.py device=NSTX` can only fail (`Mapping is singular`): no boundary type is selected, and the rotating ellipse with elongation 2 is flat at the only toroidal quadrature point. `device=ROT_ELL` changes nothing in the discretisation. `stell.py` accepts `nfp` and ignores it (it reads `n_fp`).
* C107 `helical_map` divides by zero at the inner inflection points when |kappa h| (1 + nfp²) = 1, e.g. kappa = 1, h = 0.1, nfp = 3; `solovev.py boundary_type=helix` uses h_helix = 0 and runs on a circular torus.
* C108 `run_relaxation_loop` returns nothing and leaves the state object it is given as it is, and the scripts go on with that object: `B_final`, `p_final` and `harmonic_norm` in the HDF5 file belong to the initial field. `solovev.py` with the default parameters raises ZeroDivisionError after the loop and writes no file. `stell.py` writes `<name>.h5.h5`. `run_name=42` raises TypeError.
- C110: one pair with `n <= p` (p >= 2) in a convergence study raises ValueError and loses all results already computed; the reference lines of `cylinder_vector_poisson.plot_results` (`ns/ns[-1]`) need numpy arrays although the docstring of `run_convergence_analysis` asks for lists.
- C111/C31: `scripts/interactive/toroid_poisson.py` uses q = p quadrature points. For p = 1 and an even number of splines the mass matrix of 0-forms is exactly singular (`C31_even_one_point`, for every map, polar or not, Dirichlet or not), yet the script solves with it and writes a result. The docstring of its `main` promises ValueError for bad arguments; the script exits with code 1 instead, and `n <= p` is not checked by main.
- C112: `iter_plots.py`, `helix_plots.py`, `solovev_poincare.py` read `CONFIG["type"]`, a key stored only if a device preset was named (runs store `boundary_type`): every run of `iter_islands.py` without a device cannot be plotted (KeyError). With device HELIX: TypeError (`n_turns` passed to `helical_map`); with ROT_ELL the field of the tokamak run is drawn on a rotating ellipse. The run name to give is `n/n`. `solovev_poincare.py` opens `script_outputs/iter/default.h5` and `helix_plots.py` a directory no run writes.
- C113: the Poincaré scripts raise ValueError (matplotlib Normalize) if the pressure is negative at all crossings; `crossings % 1` reads the pressure of a crossing on the boundary r = 1 at the centre; the seeds are sorted by r cos(theta) with theta in turns, which is not the signed distance; negative pressures have the colour of zero.
- C114: force_multiplot.py cannot draw any run of the relaxation scripts: it needs `dt_max` (only in hopf.py) and `energy_diff_trace` (nowhere); its helicity figure subtracts the first run (`trace[0]` of the stacked array) instead of the initial value; from the sixth value on line styles repeat; the last abscissa is wrong unless save_every divides maxit.
- C115: solovev_single_plot.py reads `divergence_B_trace`, which no run writes, from a file no run writes; its curve labelled ||div B|| is the change since the first entry; its `beta` divides a mean pressure by a total energy.
- C116: test_gvec_tokamak.py evaluates the periodic splines at theta*/2pi without reducing it modulo 1; outside [0, 1] they do not add up to 1.
- C117: the convergence assertion of test_gvec_stellarator.py is about the mean of the rates and passes for errors that increase; the script fits at theta, though the title and labels of its figure say theta*.
- C120: `plot_eigenvectors_grid` (`cylinder_cavity.py`, `toroid_cavity.py`) sizes the grid by `int(sqrt(num))`, rounded down: with any number of panels that is not a perfect square of at least 4 it raises, so the fallback "Plotting all available" raises unless luckily a square is available, and the loop that hides unused axes never hides one.
- C120: the axis of the cavity spectra is labelled `lambda_k / pi^2`, the values drawn are `lambda_k`; the axis of the drum errors is labelled `|l - l*| / l`, the values drawn are relative to `l*`.
- C120: `cylinder_cavity.py` overwrites the small parameters chosen for GitHub Actions two lines later, so they are never used.
- C120: the sign of the drum's eigenfunction is fixed by its value on the axis; if that is zero the picture depends on the solver.
- C121: mass is not conserved by weak divergences and the Laplacian except for the resolutions in which the gradient of a constant vanishes (see C76); 5 x 6 x 4 splines are a counterexample.
- C121: with Dirichlet conditions the L2 projection loses integral, even of the constant 1, by exactly the squared distance to its projection, which is never zero.
- C122: the number printed as beta in the demo notebook is the plasma beta divided by the volume (p is averaged over the volume, |B|^2 only integrated).
- C122: the pressure drawn for the GVEC equilibrium after its relaxation is that of the field before it (`get_pressure(B_dof)`).
- C122: the GVEC loop of the notebook prints iteration numbers 100 too small.
- C122: the force norms in the notebook's trace are those of the last step, even if it was rejected.
- C122: `run_relaxation_loop` divides the time step by dt_factor^2 after slow steps where the notebook divides by 1.01.
- C123: `run_scripts.py` never looks at return codes: a failing script neither changes its exit code nor, if it writes nothing to the standard error, its output.

## Mutation tests

`tools/mutate.py` edits one definition of the model in a scratch copy, rebuilds, and logs to `seeded/LOG.jsonl` which theorems of the claims that the edit falsifies fail (mutation lists:
`tools/mutations*.py`). Every surviving edit led to a new or stronger theorem, or to a corrected claim mapping; both are in the log.
