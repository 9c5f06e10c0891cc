# (module, definition, old, new, [claims broken], description)
R = 'Model.RunFile'
MUTATIONS = [
 (R, 'configTruth', 'v.truthy zero', '!v.truthy zero', ['C108'], 'inverted condition'),
 (R, 'runName', 'if s = [] then uniqueId W.rnd 8 else s', 'uniqueId W.rnd 8', ['C108'], 'given name ignored'),
 (R, 'runName', 'uniqueId W.rnd 8', 'uniqueId W.rnd 6', ['C108'], 'six characters'),
 (R, 'outDir', '"/".toList ++ name ++ "/".toList', '"/".toList ++ name', ['C108'], 'missing slash'),
 (R, 'divisorOf', '.ok n.natAbs', '.ok (n.natAbs + 1)', ['C108'], 'divisor off by one'),
 (R, 'loopNums', '.ok (a, b, f, p)', '.ok (f, b, a, p)', ['C108'], 'tolerances swapped'),
 (R, 'loopInts', '.ok (a, b, f, p)', '.ok (b, a, f, p)', ['C108'], 'numbers of iterations swapped'),
 (R, 'loopDivisors', '.ok (a, b)', '.ok (b, a)', ['C108'], 'divisors swapped'),
 (R, 'loopFlags', '.ok (a, b, f)', '.ok (a, f, b)', ['C108'], 'force_free and save_B swapped'),
 (R, 'loopConfig', 'precond, every', 'ff, every', ['C108'], 'wrong flag for the preconditioner'),
 (R, 'stateNums', '.ok (dt, eta, g.toNat)', '.ok (eta, dt, g.toNat)', ['C108'], 'dt and eta swapped'),
 (R, 'traceKeys', '("energy_trace", .energy), ("helicity_trace", .helicity)', '("energy_trace", .helicity), ("helicity_trace", .energy)', ['C108'], 'swapped datasets'),
 (R, 'traceKeys', '("wall_time_trace", .wallTime)', '("wall_time_trace", .timesteps)', ['C108'], 'wrong list'),
 (R, 'storedPressure', 'if forceFree then', 'if !forceFree then', ['C108'], 'inverted'),
 (R, 'stepperOf', 'cfg.precond, forceFree', 'cfg.precond, false', ['C108'], 'force_free ignored'),
 (R, 'stepperOf', 'gamma, cfg.precond', '0, cfg.precond', ['C108'], 'gamma ignored'),
 (R, 'finishRun', 'times := (W.endTime - W.startTime,', 'times := (W.endTime - W.setupDone,', ['C108'], 'total time from the setup'),
 (R, 'finishRun', 'T.D.norm2 (T.D.harmonicComponent (m.states 0).Bn)', 'T.D.norm2 (m.states 0).Bn', ['C108'], 'norm of the whole field'),
 (R, 'finishRun', 'name := traceFile filename', 'name := filename', ['C108'], 'no extension'),
 (R, 'finishRun', 'fields := if cfg.saveB then', 'fields := if true then', ['C108'], 'fields always saved'),
 (R, 'finishRun', 'config := c', 'config := []', ['C108'], 'no attributes'),
 (R, 'perturbationDue', '1 ≤ i ∧ i ≤ cfg.maxit', '1 ≤ i ∧ i < cfg.maxit', ['C108'], 'last iteration left out'),
 (R, 'perturbationDue', 'cfg.pertStrength > 0 ∧', 'cfg.pertStrength ≠ 0 ∧', ['C108'], 'negative strength'),
 (R, 'finishWith', 'if dB = none ∧', 'if', ['C108'], 'raises although there is a function'),
 (R, 'eigenStart', '(symmetrize (D.M2 * D.dd2))', '(symmetrize D.dd2)', ['C108'], 'mass matrix left out'),
 (R, 'pertOf', 'islandPert D.F loc width', 'islandPert D.F width loc', ['C108'], 'swapped arguments'),
 (R, 'iterField', 'Manufactured.solovevB k (Manufactured.iterTau q k)', 'Manufactured.solovevB k q', ['C108'], 'tau is q_star'),
 (R, 'iterField', '(D.F p)', 'p', ['C108'], 'logical coordinates'),
 (R, 'stellField', 'Manufactured.solovevB 1 q', 'Manufactured.solovevB q 1', ['C108'], 'swapped arguments'),
 (R, 'finishProjected', 'cfg.applyPertAfter cfg.pertStrength', '0 cfg.pertStrength', ['C108'], 'perturbed at the start'),
 (R, 'solovevConfig', 'if inActions then c.update actionsSizes else c', 'c', ['C108'], 'sizes of the tests ignored'),
 (R, 'solovevMain', '"solovev" ""', '"solovev" ".h5"', ['C108'], 'extension twice'),
 (R, 'iterMain', '"iter" ""', '"solovev" ""', ['C108'], 'wrong directory'),
 (R, 'stellMain', '"stell" ".h5"', '"stell" ""', ['C108'], 'the finding corrected'),
]
