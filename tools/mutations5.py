# (module, definition, old, new, [claims broken], description)
O, S, R, L, LC = 'Model.Objects', 'Model.Solvers', 'Model.Relaxation', 'Model.LazyMatrices', 'Model.Lifecycle'
MUTATIONS = [
 # reruns of survivors of mutations4 after tightening
 ('Model.IO', 'devicePresets', '("eps".toList, .float (L.lit 32 2))', '("eps".toList, .float (L.lit 23 2))', ['C56'], 'rerun: digits of a preset swapped'),
 ('Model.IO', 'defaultConfig', '("n_zeta".toList, .int 6)', '("n_z".toList, .int 6)', ['C56'], 'rerun: key renamed'),
 ('Model.IO', 'traceDatasets', '("energy_trace".toList, t.energy)', '("energy_trace".toList, t.helicity)', ['C58'], 'rerun: wrong trace under a name'),
 ('Model.Plotting', 'Grid2Args.x3', 'linspace (a.zMin', 'linspace (a.yMin', ['C65'], 'rerun: wrong lower bound'),
 ('Model.Plotting', 'intersectWithPlane', 'idxs.map (interpCrossing', '(idxs.drop 1).map (interpCrossing', ['C66'], 'rerun: first crossing dropped'),
 # lifecycle
 (LC, 'Call.body', 'some { a with strongGrad := some (solve M1 D0) }', 'some { a with strongGrad := some (solve M1 (-D0)) }', ['C80'], 'sign of strong_grad'),
 (LC, 'Call.body', '| some M1, some G, some V => some { a with dd1', '| some M1, some G, some V => some { a with weakDiv := none, dd1', ['C80'], 'assemble_dd1 deletes weak_div'),
 (LC, 'Call.body', '(D.E2 * assemble D.S.getDLambda2 D.S.getDLambda2 D.nq 1 D.W3 D.S.L2.dims.n D.S.L2.dims.n * D.E2ᵀ) + C * V)', '(D.E2 * assemble D.S.getDLambda2 D.S.getDLambda2 D.nq 1 D.W3 D.S.L2.dims.n D.S.L2.dims.n * D.E2ᵀ) - C * V)', ['C80'], 'sign in dd2'),
 (LC, 'Call.body', '| .assembleDd3 => [fun a => match a.strongDiv, a.weakGrad with', '| .assembleDd3 => [fun a => match a.strongDiv, a.weakGrad.orElse (fun _ => some 0) with', ['C80'], 'missing weak_grad taken as zero'),
 (LC, 'assembleAll', '.assembleM3, .assembleD0', '.assembleD0, .assembleM3', ['C80'], 'harmless reordering of the calls (equivalent; C80_assemble_all must still hold)'),
 (LC, 'assembleAll', '.assembleD2, .assembleDd0, .assembleDd1, .assembleDd2,\n   .assembleDd3', '.assembleDd3, .assembleDd0, .assembleDd1, .assembleDd2,\n   .assembleD2', ['C80'], 'dd3 before d2'),
 (LC, 'assembleAll', '.assembleDd3, .assembleP12, .assembleP03', '.assembleDd3, .assembleP12', ['C80'], 'P03 forgotten'),
 # objects
 (O, 'Mem.push', 'm.lists r ++ [v]', 'v :: m.lists r', ['C50', 'C54'], 'prepend instead of append'),
 (O, 'TraceDict.append', 'm.push (d.lists .energy) (.fv E)', 'm.push (d.lists .force) (.fv E)', ['C54'], 'energy appended to the force list'),
 (O, 'TraceDict.append', '(.real (time - start))', '(.real time)', ['C54'], 'wall time not relative'),
 (O, 'pyAccept', 'l.assign fun s => s.updateBn (env.perturb s.Bn) else l', 'l else l', ['C52'], 'perturbation dropped'),
 (O, 'pyAccept', 'l.assign fun s => s.updateDt dtNew', '{ l with mem := l.mem.newState (l.state.updateDt dtNew) }', ['C52'], 'new time step not bound to the name'),
 (O, 'pyRecord', 'd.append start i', 'd.append start (i + 1)', ['C54'], 'off by one iteration recorded'),
 (O, 'pyIteration', '(s.dt / 2)).assign fun s => s.updateBguess s.Bn', '(s.dt / 2)).assign fun s => s.updateBn s.Bguess', ['C52'], 'rejected step committed'),
 (O, 'pyInit', '(env.clock 0) (if cfg.saveB then some s.Bn else none) m, r, false⟩', '(env.clock 0) (if cfg.saveB then some s.Bn else none) m, m.nextState - 1, false⟩', ['C52'], 'dry run becomes the state'),
 (O, 'pyRun', 'cfg.maxit).mem', '(cfg.maxit - 1)).mem', ['C54'], 'one iteration less'),
 (O, 'TraceDict.copyWithStart', '{ d with startTime := some time }', '{ d with lists := fun k => d.lists k + 11, startTime := some time }', ['C54'], 'copy made deep'),
 (O, 'freshLists', '| .force => base + 1', '| .force => base', ['C54'], 'two keys share a list'),
 (O, 'Mem.deepcopy', 'if r = m.nextList + 2 then m.lists (d.lists .energy)', 'if r = m.nextList + 2 then []', ['C54'], 'deepcopy loses contents'),
 # solvers
 (S, 'residual', 'norm (Arr.sub (f z).1 z.1)', 'norm (Arr.sub z.1 (f z).1)', ['C41'], 'residual of the other sign (equivalent for even norms)'),
 (S, 'picardAlpha', 'if s.i = 0 then .fin 1', 'if s.i = 1 then .fin 1', ['C42'], 'first step damped'),
 (S, 'picardSolver', 'let z := if s.i = 0 then f s.z else s.z', 'let z := s.z', ['C41'], 'no application after zero iterations'),
 (S, 'jacrev', 'fderiv ℝ F x (Pi.single j 1) i', 'fderiv ℝ F x (Pi.single j 1) i + 1', ['C43', 'C44'], 'wrong Jacobian'),
 (S, 'newtonMap', '(xNext, (f (xNext, z.2)).2)', '(xNext, (f (z.1, z.2)).2)', ['C43'], 'auxiliary value from the old point'),
 (S, 'newtonSolver', 'picardSolver (newtonMap f) tol maxIter', 'picardSolver (newtonMap f) tol (maxIter + 1)', ['C43'], 'one iteration more'),
 (S, 'invertLoop', '⟨step s.x, err s.x, s.i + 1⟩', '⟨step s.x, err (step s.x), s.i + 1⟩', ['C44'], 'error of the new point (would fix the stale error)'),
 (S, 'euclid', 'Real.sqrt (∑ i, r i ^ 2)', 'Real.sqrt (∑ i, r i)', ['C44'], 'norm without squares'),
 (S, 'invertMap', '(x0Fn y)', '(x0Fn 0)', ['C44'], 'initial guess of the wrong point'),
 # relaxation
 (R, 'midpointResiduum', 'picardIterations := s.picardIterations + 1', 'picardIterations := s.picardIterations', ['C48'], 'iteration counter not increased'),
 (R, 'midpointResiduum', 'Bguess := (upd s).B', 'Bn := (upd s).B', ['C49'], 'update written to B_n'),
 (R, 'stepperSolve', '{ s with picardResiduum := .fin 1, picardIterations := 0 }', '{ s with picardIterations := 0 }', ['C48'], 'stale residual at start'),
 (R, 'stepperSolve', 'picardResiduum := .fin 1, picardIterations := 0', 'picardResiduum := .fin 1', ['C48'], 'stale iteration count at start'),
 (R, 'State.updateBguess', '{ s with Bguess := B }', '{ s with Bn := B }', ['C49'], 'update_B_guess writes B_n'),
 (R, 'State.updateDt', '{ s with dt := dt }', '{ s with eta := dt }', ['C49'], 'update_dt writes eta'),
 (R, 'relaxInit', 'dry.forceNorm (env.energy s.Bn)', 'dry.forceNorm (env.energy dry.Bguess)', ['C50'], 'energy of the trial step recorded'),
 (R, 'P1x1to2', 'D.crossVec .two .one .one v w', 'D.crossVec .two .one .one w v', ['C46'], 'cross product swapped'),
 (R, 'P2x1to1', 'D.crossVec .one .two .one u w', '-D.crossVec .one .two .one u w', ['C46'], 'sign of u x H'),
 (R, 'JxH', 'T.D.P1x1to2 (T.J s) (T.Hh s)', 'T.D.P1x1to2 (T.Hh s) (T.J s)', ['C46'], 'H x J'),
 (R, 'f', 'if T.forceFree then T.JxH s else T.D.leray T.pinv *ᵥ T.JxH s', 'if T.forceFree then T.D.leray T.pinv *ᵥ T.JxH s else T.JxH s', ['C46'], 'flag inverted'),
 (R, 'u0', '(1 + T.D.dd2)⁻¹ *ᵥ v', '(1 - T.D.dd2)⁻¹ *ᵥ v', ['C46'], 'regularisation with the wrong sign'),
 (R, 'update', 'T.D.norm2 (T.Bnext s - s.Bguess)', 'T.D.norm2 (T.Bnext s - s.Bn)', ['C46', 'C47'], 'residual against B_n'),
 (R, 'deltaB', 'D.P2x1to1 u (D.P12 *ᵥ B)', 'D.P2x1to1 u (D.weakCurl *ᵥ B)', ['C53'], 'delta B with J'),
 (R, 'uxJ', 'D.P2x1to1 u (D.weakCurl *ᵥ B)', 'D.P2x1to1 u (D.P12 *ᵥ B)', ['C53'], 'u x H'),
 (R, 'columns', 'f (Pi.single i 1) r', 'f (Pi.single i 2) r', ['C53'], 'unit vectors of length 2'),
 (R, 'env', 'helicity B := .fin (T.D.helicity B)', 'helicity B := .fin (T.D.energy B)', ['C47'], 'helicity diagnostic is the energy'),
 # lazy
 (L, 'coordLine', '| 1 => fun y => g (x.1, y, x.2.2)', '| 1 => fun y => g (y, x.2.1, x.2.2)', ['C37'], 'wrong coordinate'),
 (L, 'gradForm', 'jacfwdForm Λ i x 0 j', 'jacfwdForm Λ i x j 0', ['C37'], 'Jacobian transposed'),
 (L, 'curlForm', 'jacfwdForm Λ i x 0 2 - jacfwdForm Λ i x 2 0', 'jacfwdForm Λ i x 2 0 - jacfwdForm Λ i x 0 2', ['C37'], 'sign of a component'),
 (L, 'divForm', '+ jacfwdForm Λ i x 2 2) * 1', '- jacfwdForm Λ i x 2 2) * 1', ['C37'], 'sign of a term'),
 (L, 'lazyEinsum', 'a i (Q.x.getD j 0) k * b l', 'a l (Q.x.getD j 0) k * b l', ['C37'], 'wrong index'),
 (L, 'lazyMatrix', 'E1 * A * E0ᵀ', '(2 : ℝ) • (E1 * A * E0ᵀ)', ['C37'], 'factor 2'),
 (L, 'lazyMass2', '(fun x => 1 / lazyJ F x)', '(lazyJ F)', ['C37'], 'wrong weight'),
 (L, 'lazyMass', 'else if Λ.dims.k = 2 then lazyMass2 Q F Λ', 'else if Λ.dims.k = 2 then lazyMass1 Q F Λ', ['C37'], 'wrong branch'),
 (L, 'lazyGradient', '(fun i x => (inv33 (lazyDF F x))ᵀ *ᵥ gradForm Λ0 i x)', '(fun i x => (inv33 (lazyDF F x)) *ᵥ gradForm Λ0 i x)', ['C37'], 'transpose dropped'),
 (L, 'lazyDiv', '(fun x => 1 / lazyJ F x)', '(fun _ => 1)', ['C37'], 'Jacobian dropped'),
 (L, 'lazyProjection', '(fun _ => 1)', '(fun _ => 2)', ['C37'], 'factor 2'),
 (L, 'lazyDoubleCurl', '(fun x => 1 / lazyJ F x)', '(lazyJ F)', ['C37'], 'wrong weight'),
 (L, 'lazyStiffness', 'gradForm Λ i x) (lazyJ F)', 'gradForm Λ i x) (fun x => 1 / lazyJ F x)', ['C37'], 'wrong weight'),
 (L, 'lazyDoubleDiv', '(divForm Λ) (divForm Λ)', '(divForm Λ) (evalS Λ)', ['C37'], 'divergence applied once'),
]
