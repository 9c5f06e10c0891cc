F='Model.Forms'; SQ='Model.Sequence'; A='Model.Assembly'; P='Model.Projectors'; R='Model.Relaxation'; D='Model.Diagnostics'
SC='Model.Scripts'; IO='Model.IO'; PL='Model.Plotting'; M='Model.Mappings'; LM='Model.LazyMatrices'; O='Model.Objects'; SV='Model.Solvers'
X='Model.Extraction'; Q='Model.Quadrature'; FL='Model.Float'
MUTATIONS=[
# scripts
(SC,'symmetrize','A + Aᵀ','A - Aᵀ',['C77','C79'],'antisymmetric part'),
(SC,'normalize','(D.norm2 B)⁻¹','(D.norm2 B)',['C77'],'multiplied by the norm'),
(SC,'harmonicStart','D.normalize (V.col k)','V.col k',['C77'],'not normalised'),
(SC,'divfreeProjection','D.leray X *ᵥ (D.M2⁻¹ *ᵥ D.projector2 B)','D.M2⁻¹ *ᵥ D.projector2 B',['C77'],'Leray projection forgotten'),
(SC,'divfreeProjection','D.leray X *ᵥ (D.M2⁻¹ *ᵥ D.projector2 B)','D.leray X *ᵥ D.projector2 B',['C77'],'mass solve forgotten'),
(SC,'projectedStart','applyPertAfter = 0 ∧ strength > 0','applyPertAfter = 0',['C77'],'perturbation with non-positive strength'),
(SC,'projectedStart','strength • D.normalize (D.divfreeProjection X dB)','strength • (D.M2⁻¹ *ᵥ D.projector2 dB)',['C77'],'perturbation not projected'),
(SC,'poisson0','(D.M0 * D.dd0)⁻¹','(D.dd0)⁻¹',['C78'],'mass matrix forgotten'),
(SC,'poisson0','D.projector0 f','D.M0⁻¹ *ᵥ D.projector0 f',['C78'],'coefficients instead of the load vector'),
(SC,'poisson3','(D.M3 * D.dd3)⁻¹','-(D.M3 * D.dd3)⁻¹',['C78'],'sign of the mixed solution'),
(SC,'l2Norm','* D.g.J i','',['C78'],'Jacobian forgotten'),
(SC,'relativeError','D.l2Norm (fun x => u x - uh x) / D.l2Norm u','D.l2Norm (fun x => u x - uh x)',['C78'],'absolute error'),
(SC,'doubleCurl','D.dd1 + D.strongGrad * D.weakDiv','D.dd1 - D.strongGrad * D.weakDiv',['C79'],'sign of the gradient-divergence term'),
(SC,'doubleCurl','D.M1 * ','',['C79'],'mass matrix forgotten'),
(SC,'eighPinv','if |w k| > tol','if w k > tol',['C78'],'negative eigenvalues dropped'),
(SC,'eighPinv','1 / w k','w k',['C78'],'eigenvalues not inverted'),
(SC,'Stepper.initState','⟨B, B, dt','⟨B, 0, dt',['C77'],'first guess zero'),
(SC,'averageStepTime','| some 0 => .error "ZeroDivisionError: float division by zero"','| some 0 => .ok 0',['C77'],'division by zero ignored'),
# IO
(IO,'PyDict.set','d ++ [(k, v)]','d',['C55'],'new keys not inserted'),
(IO,'PyDict.set','then (k, v) else e','then e else (k, v)',['C55','C56'],'wrong entries overwritten'),
(IO,'isdigit','!s.isEmpty && ','',['C55'],'empty string is a number'),
(IO,'digitStep','10 * a + d','10 * d + a',['C55'],'digits in the wrong order'),
(IO,'pyInt','(some 0)','(some 1)',['C55'],'wrong initial value'),
(IO,'parseArgs','| .ok d => parseStep P d kv','| .ok d => parseStep P [] kv',['C55'],'earlier arguments forgotten'),
(IO,'idChars','0123456789','012345678',['C67'],'digit missing from the alphabet'),
(IO,'epochTime','10 ^ decimals','10 ^ (decimals + 1)',['C68'],'one decimal too many'),
(IO,'devicePresets','("eps".toList, .float (L.lit 32 2))','("eps".toList, .float (L.lit 23 2))',['C56'],'digits of a preset swapped'),
(IO,'defaultConfig','("n_zeta".toList, .int 6)','("n_z".toList, .int 6)',['C56'],'key renamed'),
(IO,'Attr.ne','| none, _ => some true','| none, _ => some false',['C57'],'missing key counts as equal'),
(IO,'Attr.ne','some (!decide (s = t))','some (decide (s = t))',['C57'],'comparison of strings inverted'),
(IO,'readRun','(tr, cfg, it)','(tr, cfg, it.tail)',['C58'],'iteration axis without 0'),
(IO,'unexpectedDiffs','!(decide (k ∈ allowed))','(decide (k ∈ allowed))',['C57'],'allowed keys rejected'),
(IO,'endsWithH5','".h5"','".hdf"',['C57','C58'],'wrong extension'),
(IO,'traceDatasets','("energy_trace".toList, t.energy)','("energy_trace".toList, t.helicity)',['C58'],'wrong trace under a name'),
(IO,'traceFile','filename ++ ".h5".toList','filename',['C58'],'no extension'),
# plotting
(PL,'meshPoints','x2.flatMap fun b => x1.flatMap fun a','x1.flatMap fun a => x2.flatMap fun b',['C65'],'indexing ij instead of xy'),
(PL,'Grid2Args.x1','a.xMax - a.tol1','a.xMax + a.tol1',['C65'],'upper tolerance with the wrong sign'),
(PL,'Grid2Args.x2','if a.invertY','if a.invertX',['C65'],'wrong inversion flag'),
(PL,'Grid2Args.x3','linspace (a.zMin','linspace (a.yMin',['C65'],'wrong lower bound'),
(PL,'get2dGrids','cutAxis ≠ 0 ∧ cutAxis = 1','cutAxis = 2',['C65'],'wrong axis cut'),
(PL,'get2dGrids','if cutAxis = 0 then a.nz','if cutAxis = 0 then a.ny',['C65'],'wrong width of the reshaped array'),
(PL,'planeDiff','x - planeVal - 1','x - planeVal + 1',['C66','C71'],'wrapped distance to the wrong side'),
(PL,'trajectoryIntersections','traj traj.tail','traj.tail traj',['C66'],'segments reversed'),
(PL,'planeIntersectionsList','traj traj.tail','traj traj',['C66'],'degenerate segments'),
(PL,'planeDistance','(vnorm normal)⁻¹ • normal','normal',['C66'],'normal not normalised'),
(PL,'flipMask','< 0','≤ 0',['C66'],'vertex hits counted'),
(PL,'polyfit','deg + 1','deg',['C66'],'one interpolation point too few'),
(PL,'stencil','deg / 2','deg',['C66'],'stencil shifted'),
(PL,'crossingParameter','c.min\' h','c.max\' h',['C66'],'last root instead of the first'),
(PL,'interpCrossing','deg / 2 ≤ i ∧ ','',['C66'],'no check at the start of the trajectory'),
(PL,'intersectWithPlane','idxs.map (interpCrossing','(idxs.drop 1).map (interpCrossing',['C66'],'first crossing dropped'),
(PL,'setAxesEqual','max (max (X.2 - X.1) (Y.2 - Y.1)) (Z.2 - Z.1)','max (X.2 - X.1) (Y.2 - Y.1)',['C72'],'z ignored'),
# mappings
(M,'arctan2','Complex.arg ⟨x, y⟩','Complex.arg ⟨y, x⟩',['C60','C61'],'arguments swapped'),
(M,'norm3','+ v 2 ^ 2','',['C63'],'third component forgotten'),
(M,'cerfonXt','alpha * sin','alpha * cos',['C61'],'wrong triangularity term'),
(M,'cerfonYt','epsilon * kappa','epsilon',['C61'],'elongation forgotten'),
(M,'cerfonS0','kappa * sin','sin',['C61'],'elongation forgotten in the angle'),
(M,'cerfonS','+ 2 * π','- 2 * π',['C61'],'branch shifted the wrong way'),
(M,'cerfonA','(cerfonXt epsilon alpha t - 1)','(cerfonXt epsilon alpha t)',['C61'],'radius measured from the wrong centre'),
(M,'helixTau','(norm3 (deriv (helixX h kappa alpha nfp) ζ))⁻¹ • ','',['C63'],'tangent not normalised'),
(M,'helixNu1','deriv (deriv (helixX h kappa alpha nfp)) ζ','deriv (helixX h kappa alpha nfp) ζ',['C63'],'first derivative instead of the second'),
(M,'helixNu2','(helixTau h kappa alpha nfp ζ) (helixNu1 h kappa alpha nfp ζ)','(helixNu1 h kappa alpha nfp ζ) (helixTau h kappa alpha nfp ζ)',['C63'],'cross product reversed'),
(M,'helicalMap','epsilon * r * sin','epsilon * sin',['C63'],'radius forgotten'),
(M,'rotatingEllipseF','0.5 / nfp','0.5',['C62'],'phase shift not divided'),
(M,'drumshapeMap','aH χ * r * sin','r * sin',['C63'],'shape function forgotten'),
(M,'lcfsPsi0','R ^ 2 * Z ^ 2','Z ^ 2',['C69'],'factor forgotten in the flux'),
(M,'gvecPoint','* nfp','',['C64'],'field periods forgotten'),
]
