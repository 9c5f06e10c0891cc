F='Model.Forms'; SQ='Model.Sequence'; A='Model.Assembly'; P='Model.Projectors'; R='Model.Relaxation'; D='Model.Diagnostics'
MUTATIONS=[
(D,'pressure','-(D.dd0⁻¹','(D.dd0⁻¹',['C75'],'sign of the pressure'),
(D,'pressure','D.dd0⁻¹','D.M0⁻¹',['C75'],'mass matrix instead of the Laplacian'),
(D,'lorentz','(D.weakCurl *ᵥ B) (D.P12 *ᵥ B)','(D.P12 *ᵥ B) (D.weakCurl *ᵥ B)',['C75'],'cross product arguments swapped'),
(D,'lmbda','* DFx.det','',['C75'],'determinant forgotten'),
(D,'lmbda','((DFx *ᵥ Bx) ⬝ᵥ DFx *ᵥ Bx)','(Bx ⬝ᵥ Bx)',['C75'],'logical instead of physical length'),
(D,'pressureForceFree','D.M0⁻¹ *ᵥ','',['C75'],'dual coefficients returned'),
(A,'bcTypes','("dirichlet", "none", "none")','("none", "dirichlet", "none")',['C26'],'condition on the wrong coordinate'),
(A,'P03','fun _ _ => D.w j','fun _ _ => D.w j * D.g.J j',['C74'],'extra Jacobian'),
(A,'M12','D.w j • (1 : M33)','(D.w j * D.g.J j) • (1 : M33)',['C74','C37'],'extra Jacobian'),
(P,'crossWeight','.error "ValueError: Not yet implemented"','.ok fun a => crossProduct w u a * D.w j',['C38'],'unsupported case computes something'),
(R,'divergenceNorm','D.M3 *ᵥ','',['C74'],'mass matrix forgotten'),
(R,'norm2','D.M2 *ᵥ B','B',['C74'],'mass matrix forgotten'),
(R,'energy','0.5 *','',['C74','C46'],'factor one half forgotten'),
(R,'u','T.lstsq s.hessian','T.lstsq (-s.hessian)',['C46'],'sign of the Newton system'),
(R,'u','(T.D.leray T.pinv)ᵀ *ᵥ (T.D.M2 *ᵥ T.u0 s)','T.D.M2 *ᵥ T.u0 s',['C46'],'adjoint projector forgotten'),
(R,'Hh','T.D.P12 *ᵥ T.Bmid s','T.D.P12 *ᵥ s.Bn',['C46','C47'],'explicit field in the Lorentz force'),
(R,'J','T.D.weakCurl *ᵥ T.Bmid s','T.D.weakCurl *ᵥ s.Bguess',['C46'],'implicit field in the current'),
(R,'E','- s.eta • T.J s','+ s.eta • T.J s',['C46'],'sign of the resistivity'),
(R,'harmonicComponent','B - D.strongCurl','B + D.strongCurl',['C74'],'sign of the harmonic component'),
(R,'harmonicComponent','B - D.strongCurl *ᵥ D.vectorPotential B','B',['C73'],'potential part not subtracted'),
(SQ,'getDLambda0','S.diffZ nt a.2.2 q.2.2','S.diffZ (nt+1) a.2.2 q.2.2',['C33','C76'],'wrap row of one getter only'),
(SQ,'getDLambda1','S.diffR nt a.1 q.1 * S.dlamT','S.diffR (nt+1) a.1 q.1 * S.dlamT',['C33'],'radial bound of one term only'),
(SQ,'getDLambda2','S.diffR nt a.1 q.1','S.diffR (nt+1) a.1 q.1',['C33'],'radial bound of the divergence only'),
(SQ,'getDLambda1','else -d1dy','else d1dy',['C33','C20'],'sign of one curl term'),
(SQ,'diffT','else S.dlamT.get (nt - 1) j2','else 0',['C20','C76'],'no wrap-around in theta'),
(SQ,'diffR','if (i1 : Int) = (nt : Int) - 1 then 0','if (i1 : Int) = (nt : Int) then 0',['C76','C20'],'cut-off index shifted'),
(F,'mk?','if Dims.validDegree k then','if k = k then',['C09'],'any degree accepted'),
(R,'vectorPotential','D.dd1⁻¹','D.M1⁻¹',['C47','C73'],'mass matrix instead of the Laplacian'),
(R,'hessian','LxJᵀ * D.M12 * D.M2 * dB','-(LxJᵀ * D.M12 * D.M2 * dB)',['C53'],'sign of the second Hessian term'),
]
