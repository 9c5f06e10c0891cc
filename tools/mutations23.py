G = 'Model.Demo'
MUTATIONS = [
 (G, 'failed', 'FV.gt s.picardResiduum (.fin tol)', 'FV.gt s.picardResiduum (.fin (2 * tol))', ['C122'], 'twice the tolerance accepted'),
 (G, 'failed', ' ∨ ¬ s.picardResiduum.isfinite', '', ['C122'], 'NaN accepted'),
 (G, 'loopBody', 's.updateDt (s.dt / 2)', 's.updateDt s.dt', ['C122'], 'time step not halved'),
 (G, 'loopBody', 's1.updateBguess s1.Bn', 's1', ['C122'], 'guess not reset'),
 (G, 'loopBody', 's.updateBn s.Bguess', 's', ['C122'], 'new field not taken'),
 (G, 'loopBody', 's1.picardIterations < 4', 's1.picardIterations ≤ 4', ['C122'], 'four iterations count as few'),
 (G, 'loopBody', 's1.dt * 1.01', 's1.dt * 1.1', ['C122'], 'wrong growth'),
 (G, 'loopBody', 's1.dt / 1.01', 's1.dt / 1.01 ^ 2', ['C122'], 'divided twice'),
 (G, 'onFail', '(s.updateDt (s.dt / 2)).updateBguess (s.updateDt (s.dt / 2)).Bn', 's.updateDt (s.dt / 2)', ['C122'], 'guess not reset in the scan'),
 (G, 'onSuccess', 's.updateBn s.Bguess', 's', ['C122'], 'field not taken in the scan'),
 (G, 'onSuccess', 'then s1.dt * 1.01 else s1.dt / 1.01', 'then s1.dt / 1.01 else s1.dt * 1.01', ['C122'], 'step sizes exchanged in the scan'),
 (G, 'bodyFn', 'then onFail else onSuccess', 'then onSuccess else onFail', ['C122'], 'branches exchanged'),
 (G, 'outerPass', 'body^[inner]', 'body^[inner + 1]', ['C122'], 'one iteration too many'),
 (G, 'outerPass', 'hel s.Bn', 'hel v.state.Bn', ['C122'], 'helicity of the field before the pass'),
 (G, 'outerPass', '[s.forceNorm]', '[v.state.forceNorm]', ['C122'], 'force before the pass'),
 (G, 'outerPass', '((i : Int) + offset) * inner', '((i : Int) + offset)', ['C122'], 'passes counted'),
 (G, 'start', '(step s).forceNorm', 's.forceNorm', ['C122'], 'first entry without the dry run'),
 (G, 'start', '⟨s, [', '⟨step s, [', ['C122'], 'dry run kept'),
 (G, 'relaxTokamak', '100 11 10', '100 1 10', ['C122'], 'numbers start again in the scan'),
 (G, 'relaxTokamak', '100 1 10', '100 1 9', ['C122'], 'nine passes'),
 (G, 'relaxGvec', '100 0 25', '100 1 25', ['C122'], 'printed numbers repaired: the finding is gone'),
 (G, 'relaxGvec', '100 0 25', '100 0 26', ['C122'], 'one pass too many'),
 (G, 'libraryConfig', 'dtFactor := 1.01', 'dtFactor := 1.1', ['C122'], 'other factor'),
 (G, 'libraryConfig', 'solverCritit := 4', 'solverCritit := 3', ['C122'], 'other critical number'),
 (G, 'libraryConfig', 'precond := false', 'precond := true', ['C122'], 'Hessian used'),
 (G, 'pAvg', 'fun _ _ => 1', 'fun _ _ => 2', ['C122'], 'projection of 2'),
 (G, 'pAvg', 'D.g.J j * D.S.Q.w.getD j 0', 'D.S.Q.w.getD j 0', ['C122'], 'logical volume'),
 (G, 'beta', '2 * pAvg D p', 'pAvg D p', ['C122'], 'factor two forgotten'),
 (G, 'beta', 'B ⬝ᵥ D.M2 *ᵥ B', 'B ⬝ᵥ B', ['C122'], 'mass matrix forgotten'),
 (G, 'argmax', 'Figures.maxOf l', 'Figures.minOf l', ['C122'], 'smallest entry'),
 (G, 'xMax', 'g.y.getD', 'g.x.getD', ['C122'], 'logical point'),
 (G, 'xMax', 'get2dGrids F 0 2 args', 'get2dGrids F 0 1 args', ['C122'], 'other cut'),
 (G, 'shift', '![1, 0, 0]', '![0, 0, 0]', ['C122'], 'distance from the origin'),
 (G, 'shownTokamak', 'D.pressure v.state.Bn', 'D.pressure B', ['C122'], 'initial pressure drawn'),
 (G, 'shownGvec', 'D.pressure B', 'D.pressure v.state.Bn', ['C122'], 'finding repaired'),
 ('Model.EigenPlots', 'drumMode', '(x 0, x 1, x 2) 0', '(x 1, x 0, x 2) 0', ['C120'], 'coordinates exchanged (again)'),
 ('Model.EigenPlots', 'drumMode', 'D.S.L0 v D.E0', 'D.S.L0 (2 • v) D.E0', ['C120'], 'mode scaled (again)'),
 ('Model.Figures', 'FV.abs', 'fin a => fin |a|', 'fin a => fin a', ['C102'], 'absolute value forgotten (again)'),
 (G, 'phi', '1 + 0.33 * x 0', '1 + 0.3 * x 0', ['C122'], 'other aspect ratio'),
 (G, 'phi', '-R * Real.sin', 'R * Real.sin', ['C122'], 'left-handed'),
 (G, 'phi', '0.33 * 1.1 * x 0', '0.33 * x 0', ['C122'], 'elongation forgotten'),
 (G, 'seq', '(12, 12, 1) (3, 3, 0) 5', '(3, 12, 1) (3, 3, 0) 5', ['C122'], 'too few splines'),
 (G, 'seq', 'phi true true', 'phi false true', ['C122'], 'not polar'),
 (G, 'tau', '(1.1 ^ 2 + 1) / (1.1 + 1)', '(1.1 ^ 2 + 1) / (1.1 - 1)', ['C122'], 'other toroidal field'),
 (G, 'b0', 'y 2 * R', 'y 2 / R', ['C122'], 'radial field divided'),
 (G, 'b0', '-(0.5 * 1.1 ^ 2 *', '(0.5 * 1.1 ^ 2 *', ['C122'], 'sign forgotten'),
 (G, 'b0', '(R ^ 2 - 1 ^ 2) + y 2 ^ 2', '(R ^ 2 - 1 ^ 2) - y 2 ^ 2', ['C122'], 'not divergence-free'),
 (G, 'b0', 'BR * Real.cos φ - Bphi', 'BR * Real.cos φ + Bphi', ['C122'], 'rotation wrong'),
 (G, 'initialField', 'D.normalize (D.divfreeProjection X b0)', 'D.divfreeProjection X b0', ['C122'], 'not normalised'),
 (G, 'initialField', 'D.normalize (D.divfreeProjection X b0)', 'D.normalize (D.M2⁻¹ *ᵥ D.projector2 b0)', ['C122'], 'not Leray-projected'),
 (G, 'initialState', '1e-3, 0, H', '-1e-3, 0, H', ['C122'], 'negative time step'),
 (G, 'initialState', '1e-3, 0, H', '1e-3, -1, H', ['C122'], 'negative resistivity'),
]
