# (module, definition, old, new, [claims broken], description)
R, SC, Q, P, E, G = 'Model.Relaxation', 'Model.ScriptCalls', 'Model.Quadrature', 'Model.Projectors', 'Model.Extraction', 'Model.Geometry'
MUTATIONS = [
 (R, 'rejectState', 's1.updateBguess s1.Bn', 's1', ['C50', 'C99'], 'guess not reset after a rejected step'),
 (R, 'rejectState', 's.dt / 2', 's.dt * 2', ['C99'], 'time step doubled after a rejected step'),
 (R, 'acceptState', 's3.dt * cfg.dtFactor else', 's3.dt else', ['C50'], 'time step never grows'),
 (R, 'acceptState', 's3.dt / cfg.dtFactor ^ 2', 's3.dt / cfg.dtFactor', ['C50', 'C99'], 'time step shrinks by the factor instead of its square'),
 (R, 'acceptState', '(env.hessian s2.Bn)', '(env.hessian s.Bn)', ['C50'], 'Hessian of the previous field'),
 (R, 'stepperCond', '∨ s.picardResiduum.isnan', '', ['C48'], 'NaN residuum ends the Picard iteration'),
 (R, 'stepperSolve', 'picardResiduum := .fin 1', 'picardResiduum := .fin 0', ['C48', 'C99'], 'no Picard iteration at all'),
 (R, 'relaxIteration', 'FV.lt (t.force.getLastD .nan)', "FV.lt (s'.velocityNorm)", ['C50', 'C99'], 'velocity tested instead of the recorded force'),
 (R, 'Bmid', '(s.Bguess + s.Bn)', '(s.Bguess + s.Bguess)', ['C46', 'C47'], 'implicit Euler instead of midpoint'),
 (R, 'E', '- s.eta • T.J s', '+ s.eta • T.J s', ['C46'], 'negative resistivity'),
 (R, 'u0', '(1 + T.D.dd2)⁻¹', '(1 - T.D.dd2)⁻¹', ['C46'], 'regularisation with the wrong sign'),
 (R, 'perturb', '(T.D.norm2 d)⁻¹ • d', 'd', ['C50'], 'perturbation not normalised'),
 (R, 'hessian', '(1 / 2 : ℝ) • (h + hᵀ)', '(1 / 2 : ℝ) • (h + h)', ['C51'], 'Hessian not symmetrised'),
 (R, 'uxJ', '(D.weakCurl *ᵥ B)', '(D.P12 *ᵥ B)', ['C51'], 'u x H instead of u x J'),
 (R, 'helicity', 'B + D.harmonicComponent B', 'B - D.harmonicComponent B', ['C47'], 'harmonic part with the wrong sign'),
 (SC, 'evDrum', '.call "evaluate_1d", ', '', ['C96'], 'drum script without tables'),
 (SC, 'evGvec', '.call "assemble_all", ', '', ['C96'], 'nothing assembled'),
 (SC, 'evCylinderCavity', '.call "assemble_dd1", ', '', ['C96'], 'dd1 not assembled'),
 (SC, 'evIslands', '.project "P2", .get "P_Leray"', '.get "P_Leray"', [], 'one access less: still no error (equivalent for this claim)'),
 (SC, 'methodNames', '"assemble_P12", ', '', ['C96'], 'method missing'),
 (Q, 'gauss8Weights', '1012285362', '1012285372', ['C10'], 'a digit of a weight of the 8-point rule'),
 (Q, 'gauss10Nodes', '9739065285', '9739065295', ['C10'], 'a digit of a node of the 10-point rule'),
 (Q, 'gauss5Nodes', '5384693101', '5384693111', ['C10'], 'a digit of a node of the 5-point rule'),
 (P, 'l2Product', 'jacobianDeterminant F', '1 * jacobianDeterminant F', [], 'equivalent edit'),
]
