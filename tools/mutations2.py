S='Model.SplineBases'; Q='Model.Quadrature'; F='Model.Forms'; SQ='Model.Sequence'; G='Model.Geometry'; X='Model.Extraction'
A='Model.Assembly'; P='Model.Projectors'
MUTATIONS=[
(P,'oneformProjection','(D.w j * D.g.J j)','(D.w j)',['C36'],'Jacobian forgotten'),
(P,'twoformProjection','(jacfwd D.F (D.x j))ᵀ *ᵥ v (D.x j)','jacfwd D.F (D.x j) *ᵥ v (D.x j)',['C36'],'transpose forgotten'),
(P,'threeformProjection','f (D.x j) k * D.w j','f (D.x j) k * (D.w j * D.g.J j)',['C36'],'extra Jacobian'),
(P,'crossWeight','crossProduct w (einsumT (D.g.Ginv j) u) a * D.w j','crossProduct (einsumT (D.g.Ginv j) u) w a * D.w j',['C38'],'arguments swapped in case (2,2,1)'),
(P,'crossWeight','| .one, .one, .one => .ok fun a => crossProduct w u a * D.w j','| .one, .one, .one => .ok fun a => crossProduct w u a * (D.w j / D.g.J j)',['C38'],'wrong weight in case (1,1,1)'),
(P,'crossWeight','.error "ValueError: Not yet implemented"','.ok fun a => crossProduct w u a * D.w j',['C38'],'unsupported case computes something'),
(P,'crossProductOf','if n = .one ∧ m = .one ∧ k = .two then','if n = .one ∧ m = .two ∧ k = .one then',['C38'],'wrong case rejected'),
(P,'crossProductInit','Deg.ofInt? m "m"','Deg.ofInt? n "m"',['C38'],'second degree not read'),
(P,'l2Product','* jacobianDeterminant F (toV3 (Q.x.getD i 0))','',['C36'],'Jacobian forgotten in the L2 product'),
# 9
(A,'W1','D.g.Ginv j k l','D.g.G j k l',['C31','C38'],'metric instead of its inverse'),
(A,'W2','(1 / D.g.J j * D.w j)','(D.g.J j * D.w j)',['C37','C31'],'J instead of 1/J'),
(A,'M0','* D.E0ᵀ','* (2 • D.E0ᵀ)',['C37','C36'],'scaled mass matrix'),
(A,'D0','D.S.getLambda1 D.S.getDLambda0','D.S.getDLambda0 D.S.getLambda1',['C32','C33'],'swapped getters'),
(A,'weakDiv','-solve','solve',['C32'],'sign of the weak divergence'),
(A,'weakGrad','-solve','solve',['C32','C35'],'sign of the weak gradient'),
(A,'weakCurl','solve D.M1ᵀ D.D1ᵀ','-solve D.M1ᵀ D.D1ᵀ',['C32'],'sign of the weak curl'),
(A,'dd1','- D.strongGrad * D.weakDiv','+ D.strongGrad * D.weakDiv',['C34'],'sign in the Hodge Laplacian'),
(A,'dd2','+ D.strongCurl * D.weakCurl','- D.strongCurl * D.weakCurl',['C34'],'sign in the Hodge Laplacian'),
(A,'dd3','-D.strongDiv * D.weakGrad','D.strongDiv * D.weakGrad',['C34'],'sign'),
(A,'dd0','D.W1','D.W2',['C34'],'wrong weight'),
(A,'leray','1 + D.weakGrad * X * D.strongDiv','1 - D.weakGrad * X * D.strongDiv',['C35'],'sign of the projector'),
(A,'M12','D.w j • (1 : M33)','(D.w j * D.g.J j) • (1 : M33)',['C38','C37'],'extra Jacobian'),
(A,'evaluateAtXq','∑ i : Fin n, g i j k * dofs i','∑ i : Fin n, g i k j * dofs i',['C39'],'swapped indices'),
(A,'integrateAgainst','g i j k * w j k','g i k j * w j k',['C39'],'swapped indices'),
(A,'bcTypes','("dirichlet", "none", "none")','("none", "dirichlet", "none")',['C26','C45'],'condition on the wrong coordinate'),
(A,'ofPolar','E2 := (PolarOp.mk S.L2.dims (getXi nt) dirichlet).matrix','E2 := (PolarOp.mk S.L2.dims (getXi (nt+1)) dirichlet).matrix',['C30'],'xi of another size'),
# 26
(X,'getDim','originalDim - 2','originalDim - 1',['C26'],'one boundary row kept'),
(X,'target','(p : Int) - 1','p',['C26'],'no shift'),
(X,'target','∨ type = "left"','∨ type = "right"',['C26'],'wrong side'),
(X,'element','if i = p ∧ j = tm ∧ k = tn then 1 else 0','if i = tl ∧ j = tm ∧ k = tn then 1 else 0',['C26'],'radial component of a 1-form treated like a function'),
(X,'element','B.Λ.k = 2 ∨ B.Λ.k = -1','B.Λ.k = 2',['C27'],'vector fields fall into the last case'),
(X,'getXi','1 / 3 + (1 / 3 * Real.cos','1 / 3 + (1 / 6 * Real.cos',['C28'],'coefficient'),
(X,'thetaJs','* 2 * Real.pi','* Real.pi',['C28','C30'],'half angle'),
(X,'discSize','+ 3) * z','+ 2) * z',['C29'],'two polar coefficients'),
(X,'outerZeroform','(a.1 + 2)','(a.1 + 1)',['C28','C30'],'wrong ring'),
(X,'innerOneformT','((a.2.1 + 1) % nt)','(a.2.1 + 1)',['C30'],'no wrap-around'),
(X,'innerOneformR','let p := pm.1 + 1','let p := pm.1',['C30'],'wrong polar function'),
(X,'threeform','(a.1 + 1)','(a.1)',['C30','C29'],'innermost ring kept'),
(X,'o','if P.zeroBc then 1 else 0','0',['C28','C29'],'boundary condition ignored'),
# 39
(G,'inv33','m 0 2 * m 2 1 - m 0 1 * m 2 2','m 0 1 * m 2 2 - m 0 2 * m 2 1',['C21'],'sign of a cofactor'),
(G,'inv33','1e-10','1e-2',['C21'],'threshold'),
(G,'inv33Det','m 2 1 * m 0 2 - m 0 1 * m 2 2','m 2 1 * m 0 2 + m 0 1 * m 2 2',['C21'],'sign'),
(G,'curl','DF 0 2 - DF 2 0','DF 2 0 - DF 0 2',['C24'],'sign'),
(G,'div','(jacfwd F x).trace * 1','(jacfwd F x) 0 0',['C24'],'only one derivative'),
(G,'Pushforward.vector','(inv33 (jacfwd F x))ᵀ *ᵥ f x','inv33 (jacfwd F x) *ᵥ f x',['C22','C23'],'transpose forgotten'),
(G,'Pushforward.vector','(jacfwd F x *ᵥ f x) c / (jacfwd F x).det','(jacfwd F x *ᵥ f x) c',['C22','C23'],'determinant forgotten'),
(G,'Pullback.scalar','f y c * (jacfwd F x).det','f y c / (jacfwd F x).det',['C22','C23'],'inverse determinant'),
(G,'Pullback.vector','if k = -1 then some (inv33 (jacfwd F x) *ᵥ f y)','if k = -1 then some (jacfwd F x *ᵥ f y)',['C22'],'inverse forgotten'),
(G,'Metric.ofMap','Ginv j := inv33 ((jacfwd F (xs.getD j 0))ᵀ * jacfwd F (xs.getD j 0))','Ginv j := inv33 (jacfwd F (xs.getD j 0) * (jacfwd F (xs.getD j 0))ᵀ)',['C25'],'order of the factors'),
(G,'Metric.ofMap','G j := (jacfwd F (xs.getD j 0))ᵀ * jacfwd F (xs.getD j 0)','G j := jacfwd F (xs.getD j 0) * (jacfwd F (xs.getD j 0))ᵀ',['C25'],'order of the factors'),
# 50
(SQ,'unravelQuad','(u.2.1, u.1, u.2.2)','(u.1, u.2.1, u.2.2)',['C19'],'x and y swapped'),
(SQ,'getDLambda1','if k = 1 then d1dz else -d1dy','if k = 1 then d1dz else d1dy',['C20'],'sign'),
(SQ,'getDLambda1','(if k = 0 then d3dy else if k = 1 then -d3dx else 0)','(if k = 0 then -d3dy else if k = 1 then d3dx else 0)',['C20'],'sign of a curl component'),
(SQ,'getLambda2','S.lamR.get a.1 q.1 * S.dlamT.get a.2.1 q.2.1 * S.dlamZ.get a.2.2 q.2.2','S.dlamR.get a.1 q.1 * S.dlamT.get a.2.1 q.2.1 * S.dlamZ.get a.2.2 q.2.2',['C19'],'derivative in the wrong direction'),
(SQ,'diffT','if 0 < i2 then S.dlamT.get (i2 - 1) j2 else S.dlamT.get (nt - 1) j2','if 0 < i2 then S.dlamT.get (i2 - 1) j2 else 0',['C20'],'no wrap-around'),
(SQ,'diffR','drM1 - dr','dr - drM1',['C20'],'sign'),
(SQ,'getDLambda2','S.dlamR.get a.1 q.1 * S.diffT nt a.2.1 q.2.1 * S.dlamZ.get a.2.2 q.2.2','S.dlamR.get a.1 q.1 * S.diffT nt a.2.2 q.2.1 * S.dlamZ.get a.2.2 q.2.2',['C20'],'wrong index'),
(SQ,'getLambda3','S.dlamZ.get','S.lamZ.get',['C19'],'wrong table'),
# 58
(F,'n2','d.nr * d.dt * d.nz','d.nr * d.nt * d.nz',['C16','C17'],'wrong size'),
(F,'vectorIndex','if n1 + n2 ≤ idx then 1 else 0) ,' if False else '(if n1 ≤ idx then 1 else 0) + (if n1 + n2 ≤ idx then 1 else 0)','(if n1 < idx then 1 else 0) + (if n1 + n2 ≤ idx then 1 else 0)',['C16'],'boundary of the first block'),
(F,'ravelIndex','else if c = 1 then d.n1 + Jax.ravelMultiIndex3 i j k d.nr d.dt d.nz','else if c = 1 then Jax.ravelMultiIndex3 i j k d.nr d.dt d.nz',['C16'],'offset forgotten'),
(F,'unravelIndex','else Jax.unravelIndex3 cv.2 d.nr d.nt d.dz','else Jax.unravelIndex3 cv.2 d.nr d.nt d.nz',['C16'],'wrong shape'),
(F,'dsize','if type = "clamped" then n - 1 else n','n',['C17','C16'],'derivative size'),
(F,'bases','if c = 1 then ⟨[.spline f.Λ0, .deriv f.dΛ1, .spline f.Λ2]⟩','if c = 1 then ⟨[.deriv f.dΛ0, .spline f.Λ1, .spline f.Λ2]⟩',['C19','C18'],'component 1 uses the basis of component 0'),
(F,'evaluate','if comp = cv.1 then 1 else 0','1',['C18'],'all components active'),
(F,'discreteFunction','Matrix.vecMul dof E','Matrix.vecMul (2 • dof) E',['C36','C28'],'scaled'),
(F,'mk?','if Dims.validDegree k then','if k = k then',['C09','C16'],'any degree accepted'),
# 67
(Q,'rescale','(w : K) * (b - a) / 2','(w : K) * (b - a)',['C11','C12'],'factor 1/2 forgotten'),
(Q,'rescale','((x : K) + 1) / 2 * (b - a) + a','(x : K) / 2 * (b - a) + a',['C11'],'nodes not shifted'),
(Q,'gauss3Weights','8888888888888888','8888888888888880',['C12'],'one digit'),
(Q,'gauss7Nodes','4058451513773972','4058451513773072',['C12'],'one digit of a node'),
(Q,'nodesAndWeights','if n = 4 then (gauss4Nodes, gauss4Weights)','if n = 4 then (gauss4Nodes, gauss5Weights)',['C12'],'tables mixed'),
(Q,'compositeQuad','els.flatMap fun e => (rescale (nodesAndWeights p) e.1 e.2).2','els.flatMap fun e => (rescale (nodesAndWeights p) e.2 e.1).2',['C11'],'negative weights'),
(Q,'trapezoidalQuad','if i = 0 ∨ i = n - 1 then h / 2 else h','h',['C13'],'end weights'),
(Q,'spectralQuad','1 ≤ p ∧ p ≤ 10','p ≤ 10',['C15'],'p = 0 accepted'),
(Q,'selectQuadrature','if b.type = "clamped" then .ok (compositeQuad (Jax.slice b.T b.p (-(b.p : Int))) n)','if b.type = "clamped" then .ok (compositeQuad b.T n)',['C11'],'repeated knots not removed'),
(Q,'Rule.ofRules','w := ry.2.flatMap fun y => rx.2.flatMap','w := rx.2.flatMap fun y => ry.2.flatMap',['C14'],'weights in another order'),
(Q,'Rule.ofRules','x * y * z','x * y',['C14'],'z weight forgotten'),
# 78
(S,'initKnots','(-((p : Int) + 1)) (-1)','(-(p : Int)) (-1)',['C02','C06'],'one knot missing on the left'),
(S,'initKnots','List.replicate p 0 ++ Jax.linspace01 K (n + 1 - p)','List.replicate p 0 ++ Jax.linspace01 K (n - p)',['C01'],'one knot missing'),
(S,'safeDivide','then 0 else x / y','then x else x / y',['C01','C04'],'x instead of 0'),
(S,'constSpline','Jax.get t 0 ≤ x ∧ x < Jax.get t 1','Jax.get t 0 < x ∧ x < Jax.get t 1',['C01','C02'],'open interval'),
(S,'pSpline','Jax.get t ((p + 2 : Nat) : Int) - Jax.get t 1','Jax.get t ((p + 2 : Nat) : Int) - Jax.get t 0',['C01'],'wrong denominator'),
(S,'evaluate','if i < s.p then','if i ≤ s.p then',['C02','C04'],'one function counted twice'),
(S,'evaluate','if i = (s.n : Int) - 1 ∧ x = Jax.get s.T (-1) then 1 else s.evaluate\' x i','s.evaluate\' x i',['C05','C01'],'right end point forgotten'),
(S,'mk?','n ≤ p ∧ p ≠ 1','n < p ∧ p ≠ 1',['C09'],'n = p accepted'),
(S,'mk?','∧ p ≠ 1','',['C09'],'constant axis (n = p = 1) rejected'),
]
