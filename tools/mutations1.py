S='Model.SplineBases'; Q='Model.Quadrature'; F='Model.Forms'; SQ='Model.Sequence'; G='Model.Geometry'; X='Model.Extraction'
A='Model.Assembly'; P='Model.Projectors'; L='Model.LazyMatrices'; SV='Model.Solvers'; R='Model.Relaxation'; O='Model.Objects'
IO='Model.IO'; M='Model.Mappings'; PL='Model.Plotting'
MUTATIONS=[
# 0
(PL,'setAxesEqual','let m := max (max (X.2 - X.1) (Y.2 - Y.1)) (Z.2 - Z.1)','let m := max (X.2 - X.1) (Y.2 - Y.1)',['C72'],'forget the z range'),
(PL,'setAxesEqual','(mid Z - m / 2, mid Z + m / 2)','(mid Z - m / 2, mid Z + m)',['C72'],'upper limit not halved'),
(PL,'segmentIntersection','some (d0 / denom)','some (d1 / denom)',['C66'],'wrong end of the segment'),
(PL,'segmentIntersection','p + t • (q - p)','p + t • (p - q)',['C66'],'interpolation in the wrong direction'),
(PL,'segmentPlane','0 ≤ t ∧ t ≤ 1','t ≤ 1',['C66'],'crossings before the segment are reported'),
(PL,'segmentPlane','planePoint - p','planePoint - q',['C66'],'distance from the wrong point'),
(PL,'get1dGrids','meshPoints x1 [chi] [zeta]','meshPoints x1 [zeta] [chi]',['C65'],'swapped angles'),
(PL,'get3dGrids','let y := x.map F','let y := x.reverse.map F',['C65'],'values in a different order than the points'),
(PL,'linspace','((b - a) / (n - 1 : ℝ))','((b - a) / (n : ℝ))',['C65'],'end point excluded'),
(PL,'crossingIdxs','if flipMask normal offset traj i then i else N','if flipMask normal offset traj i then i + 1 else N',['C66'],'index off by one'),
(PL,'poincareIntersections','Int.fract (p c)','p c',['C71'],'trajectory not wrapped'),
# 11
(M,'toroidMap','epsilon * kappa * r * sin (2 * π * θ)','epsilon * r * sin (2 * π * θ)',['C59'],'elongation forgotten'),
(M,'toroidMap','-R * sin (2 * π * ζ)','R * sin (2 * π * ζ)',['C59'],'orientation reversed'),
(M,'approxInverseMap','Int.fract (arctan2 (-Y) X / (2 * π))','Int.fract (arctan2 Y X / (2 * π))',['C60'],'toroidal angle sign'),
(M,'approxInverseMap','Int.fract (arctan2 (-Y) X / (2 * π))','(arctan2 (-Y) X / (2 * π))',['C60'],'angle not reduced to [0,1)'),
(M,'cerfonMap','cerfonA epsilon kappa alpha χ * r * sin (cerfonS kappa alpha χ)','kappa * cerfonA epsilon kappa alpha χ * r * sin (cerfonS kappa alpha χ)',['C61'],'elongation applied twice'),
(M,'rotatingEllipseMap','if nfp ≤ 0','if nfp < 0',['C62'],'zero field periods accepted'),
(M,'ellipseNu','1 + (1 - kappa) * cos (2 * π * zeta * nfp)','1 + (1 - kappa) * cos (2 * π * zeta)',['C62'],'field period missing'),
(M,'polarMap','![r * cos (2 * π * θ), -z, r * sin (2 * π * θ)]','![r * cos (2 * π * θ), z, r * sin (2 * π * θ)]',['C63'],'left-handed'),
(M,'cylinderMap','a * r * sin (2 * π * χ)','r * sin (2 * π * χ)',['C63'],'radius forgotten in one component'),
(M,'drumshapeMapModified','1 * (R0 + a χ * r * cos (2 * π * χ))','1 * (R0 + r * cos (2 * π * χ))',['C63'],'radius function forgotten'),
(M,'gvecStellaratorMap','let πnfp := π / nfp','let πnfp := 2 * π / nfp',['C64'],'(repair) full angle: the refutation must fail'),
(M,'gvecPoint','ζ / (2 * π) * nfp','ζ / (2 * π)',['C64'],'field periods forgotten'),
(M,'lcfsPsi','- lcfsPsi0 R0 k0 q0 (R0 + aR) 0','- lcfsPsi0 R0 k0 q0 (R0 - aR) 0',['C69'],'inboard instead of outboard point'),
(M,'lcfsLoss','q.2 * lcfsPsi R0 k0 q0 aR R Z ^ 2','q.2 * lcfsPsi R0 k0 q0 aR R Z',['C69'],'square forgotten'),
(M,'gvecValid','pt 0 > 1e-3 ∧','',['C70'],'axis points kept'),
(M,'helixX','kappa * h * sin (2 * π * nfp * ζ + alpha)','h * sin (2 * π * nfp * ζ + alpha)',['C63'],'helix amplitude'),
# 27
(IO,'splitEq',"if c = '=' then ([], s) else ((c :: (splitEq s).1), (splitEq s).2)","if c = '=' ∧ '=' ∉ s then ([], s) else ((c :: (splitEq s).1), (splitEq s).2)",['C55'],'split at the last ='),
(IO,'convert','if isdigit P value then','if false then',['C55'],'integers not recognised'),
(IO,'convert','(decide (P.lower value = "true".toList))','true',['C55'],'false becomes True'),
(IO,'parseStep',"if '=' ∉ kv then .ok kwargs","if '=' ∉ kv then .error \"ValueError\"",['C55'],'arguments without = raise'),
(IO,'updateConfig','.ok (overrideWith params (config.update preset))','.ok ((overrideWith params config).update preset)',['C56'],'preset overrides the user'),
(IO,'overrideWith','if c.mem e.1 then c.set e.1 e.2 else c','c.set e.1 e.2',['C56'],'unknown keys added'),
(IO,'loadSweep','if ds.isEmpty then','if ds.isEmpty = false then',['C57'],'inverted test'),
(IO,'loadSweep','"run_name".toList :: sweep','sweep',['C57'],'run_name not allowed to differ'),
(IO,'arange0','(i : Int) * step','(i : Int)',['C58'],'step forgotten'),
(IO,'uniqueId','List.range n.toNat','List.range (n.toNat + 1)',['C67'],'one character too many'),
(IO,'truncZero','if 0 ≤ x then ⌊x⌋ else ⌈x⌉','if 0 ≤ x then ⌈x⌉ else ⌈x⌉',['C68'],'rounds up'),
(IO,'traceFile','filename ++ ".h5".toList','filename',['C57'],'file suffix missing'),
# 39
(O,'pyInit','(env.clock 0) (if cfg.saveB then some s.Bn else none) m, r, false⟩','(env.clock 0) (if cfg.saveB then some s.Bn else none) m, m.nextState, false⟩',['C49'],'the dry run changes the state'),
(O,'PyLoop.assign','{ l with mem := l.mem.newState (f l.state), cur := l.mem.nextState }','{ l with mem := { l.mem with states := Function.update l.mem.states l.cur (f l.state) } }',['C52'],'state updated in place'),
(O,'TraceDict.copyWithStart','{ d with startTime := some time }','{ lists := fun k => 100 + d.lists k, startTime := some time }',['C54'],'(repair) copy has its own lists'),
(O,'pyRun','none => .error "TypeError"','none => .ok (pyAfter cfg env 0 d m r cfg.maxit).mem',['C54','C50'],'start_time None accepted'),
# 43
(R,'stepperCond','∨ s.picardResiduum.isnan','',['C48'],'NaN residual ends the loop'),
(R,'stepperCond','s.picardIterations < maxit ∧','',['C48'],'no iteration limit'),
(R,'rejectState','s.updateDt (s.dt / 2)','s.updateDt s.dt',['C49'],'time step not halved'),
(R,'rejectState','s1.updateBguess s1.Bn','s1.updateBn s1.Bguess',['C49'],'rejected field accepted'),
(R,'rejected','∨ ¬ s.picardResiduum.isfinite','',['C49','C45'],'NaN residual accepted'),
(R,'acceptState','(i : Int) = cfg.applyPertAfter','(i : Int) ≥ cfg.applyPertAfter',['C51'],'perturbation applied again and again'),
(R,'acceptState','let s1 := s.updateBn s.Bguess','let s1 := s',['C52'],'accepted field not stored'),
(R,'record','i % cfg.saveEvery = 0 ∨ i = cfg.maxit','i % cfg.saveEvery = 0',['C50'],'last iteration not recorded'),
(R,'record','(env.energy s.Bn)','(env.energy s.Bguess)',['C50'],'energy of the wrong field'),
(R,'Trace.append','velocity := t.velocity ++ [v]','velocity := t.velocity',['C50'],'velocity not appended'),
(R,'Trace.append','wallTime := t.wallTime ++ [time - start]','wallTime := t.wallTime ++ [time]',['C50'],'start time not subtracted'),
(R,'relaxIteration','{ l with state := rejectState s }','{ l with state := rejectState l.state }',['C49'],'rejection based on the old state'),
(R,'energy','0.5 * (B ⬝ᵥ D.M2 *ᵥ B)','(B ⬝ᵥ D.M2 *ᵥ B)',['C46'],'factor 1/2 missing'),
(R,'hessian','(1 / 2 : ℝ) • (h + hᵀ)','h',['C53'],'not symmetrised'),
(R,'E','- s.eta • T.J s','+ s.eta • T.J s',['C46'],'resistivity with the wrong sign'),
(R,'Bmid','(1 / 2 : ℝ) • (s.Bguess + s.Bn)','s.Bn',['C46'],'explicit instead of midpoint'),
(R,'Bnext','s.Bn + s.dt • (T.D.strongCurl *ᵥ T.E s)','s.Bguess + s.dt • (T.D.strongCurl *ᵥ T.E s)',['C46'],'update from the guess'),
(R,'update','T.D.norm2 (T.Bnext s - s.Bguess)','T.D.norm2 (T.Bnext s - s.Bn)',['C46'],'residual against the old field'),
(R,'perturb','let d := T.D.leray T.pinv *ᵥ (T.D.M2⁻¹ *ᵥ T.D.projector2 dB)','let d := T.D.M2⁻¹ *ᵥ T.D.projector2 dB',['C45'],'perturbation not projected'),
(R,'helicity','B + D.harmonicComponent B','B',['C47'],'harmonic part forgotten'),
(R,'divergenceNorm','D.M3 *ᵥ','',['C45'],'mass matrix forgotten'),
# 64
(SV,'picardCond','∨ (residual f norm s.z).isnan','',['C41'],'NaN ends the loop'),
(SV,'picardCond','s.i < maxIter ∧','',['C40'],'no iteration limit'),
(SV,'picardBody','s.i + 1⟩','s.i⟩',['C40'],'counter not increased'),
(SV,'picardAlpha','FV.clip01 (','id (',['C42'],'damping not clipped'),
(SV,'picardSolver','let z := if s.i = 0 then f s.z else s.z','let z := s.z',['C41'],'(i = 0 case) no extra evaluation'),
(SV,'picardSolver','(z, residual f norm z, s.i)','(z, residual f norm s.zPrev, s.i)',['C41'],'residual of the previous iterate'),
(SV,'newtonMap','let xNext := z.1 - dx','let xNext := z.1 + dx',['C43'],'wrong sign'),
(SV,'newtonF','(f (x, aux)).1 - x','(f (x, aux)).1',['C43'],'root of f instead of a fixed point'),
(SV,'invertStep','(-(f x - y))','(f x - y)',['C44'],'wrong sign'),
(SV,'invertLoop','∧ s.i < maxIter','',['C44'],'no iteration limit'),
(SV,'invertLoop','⟨step s.x, err s.x, s.i + 1⟩','⟨step s.x, err (step s.x), s.i + 1⟩',['C44'],'(repair) error of the new iterate'),
# 75
(L,'lazyMass1','(lazyJ F)','(fun x => 1 / lazyJ F x)',['C37'],'wrong metric weight'),
(L,'lazyMass2','(fun i x => lazyDF F x *ᵥ evalV Λ i x)','(fun i x => (lazyDF F x)ᵀ *ᵥ evalV Λ i x)',['C37'],'transposed pushforward'),
(L,'lazyCurl','curlForm Λ0 i x','(-curlForm Λ0 i x)',['C37'],'sign'),
(L,'lazyProjection','(fun _ => 1)','(lazyJ F)',['C37'],'extra Jacobian'),
(L,'lazyStiffness','(lazyJ F)','(fun x => 1 / lazyJ F x)',['C37'],'wrong metric weight'),
(L,'lazyMatrix','E1 * A * E0ᵀ','E1 * A * E0ᵀ + E1 * A * E0ᵀ',['C37'],'doubled'),
]
