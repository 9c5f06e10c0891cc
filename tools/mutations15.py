# (module, definition, old, new, [claims broken], description)
S = 'Model.Scripts'; R = 'Model.RunSetup'; M = 'Model.Mappings'
MUTATIONS = [
 (S, 'vectorPoissonMatrix', 'D.M2 * (D.dd2 - D.strongCurl * D.weakCurl)', 'D.M2 * D.dd2', ['C104'], 'the curl part counted twice'),
 (S, 'vectorPoissonMatrix', 'solve D.M1 D.strongCurlᵀ +', 'D.strongCurlᵀ +', ['C104'], 'mass matrix of the 1-forms not inverted'),
 (S, 'coefficientError', '(v ⬝ᵥ D.M2 *ᵥ v)', '(u ⬝ᵥ D.M2 *ᵥ u)', ['C104'], 'relative to the computed solution'),
 (S, 'coefficientError', '(u - v) ⬝ᵥ D.M2 *ᵥ (u - v)', '(u - v) ⬝ᵥ (u - v)', ['C104'], 'Euclidean norm'),
 (R, 'tokamakOf', 'arcsin d', 'd', ['C106'], 'triangularity not converted'),
 (R, 'tokamakOf', 'cerfonMap e k', 'cerfonMap k e', ['C106'], 'swapped arguments'),
 (R, 'helixOf', 'helicalMap e h k', 'helicalMap h e k', ['C107'], 'swapped arguments'),
 (R, 'helixOf', '(arcsin d) n', '(arcsin d) 1', ['C107'], 'field periods ignored'),
 (R, 'ellipseOf', 'configInt c key', 'configInt c "nfp"', ['C106'], 'wrong key for stell.py'),
 (R, 'solovevMapOf', '.str "rotating_ellipse".toList then ellipseOf c "nfp"', '.str "rotating_ellipse".toList then ellipseOf c "n_fp"', ['C106'], 'wrong key for solovev.py'),
 (R, 'solovevMapOf', 'else .error "ValueError: Unknown boundary type."', 'else tokamakOf c', ['C106'], 'unknown boundary types accepted'),
 (R, 'zetaDegree', 'if nz = 1 then .ok 0 else configNat c "p_zeta"', 'configNat c "p_zeta"', ['C106'], 'degree not reduced for axisymmetric runs'),
 (R, 'sizesOf', '((nr, nt, nz), (pr, pt, pz))', '((nr, nt, nz), (pt, pr, pz))', ['C106'], 'swapped degrees'),
 (R, 'typesOf', 'if nz = 1 then "constant" else "periodic"', '"periodic"', ['C106'], 'no constant type'),
 (R, 'typesOf', '("clamped", "periodic",', '("periodic", "clamped",', ['C106'], 'swapped types'),
 (R, 'pointsOf', 'max ps.1 (max ps.2.1 ps.2.2)', 'max ps.1 ps.2.1', ['C106'], 'third degree ignored'),
 (R, 'buildRun', 'if ∀ j < D.S.Q.x.length, 0 < D.g.J j then', 'if ∀ j < D.S.Q.x.length, 0 ≤ D.g.J j then', ['C106'], 'singular maps accepted'),
 (R, 'buildRun', 'F true true with', 'F true false with', ['C106'], 'no boundary condition'),
 (R, 'buildRun', 'F true true with', 'F false true with', ['C106'], 'no polar extraction'),
 (R, 'iterConfig', 'realLits.lit 17 1', 'realLits.lit 17 2', ['C106'], 'wrong elongation'),
 (R, 'stellConfig', '("n_zeta".toList, .int 4)', '("n_zeta".toList, .int 8)', ['C106'], 'wrong size'),
 (R, 'stellConfig', '("n_fp".toList, .int 3)', '("nfp".toList, .int 3)', ['C106'], 'the key of solovev.py'),
 (R, 'actionsSizes', '("p_zeta".toList, .int 2)', '("p_zeta".toList, .int 3)', ['C106'], 'wrong degree'),
 (R, 'solovevRun', 'if inActions then c.update actionsSizes else c', 'c', ['C106'], 'GitHub Actions ignored'),
 (R, 'solovevRun', 'if inActions then c.update actionsSizes else c', 'if inActions then c else c.update actionsSizes', ['C106'], 'negated condition'),
 (R, 'stellRun', 'params stellConfig', 'params (defaultConfig realLits)', ['C106'], 'own defaults of the script dropped'),
 (R, 'iterRun', 'iterBuild c', 'solovevBuild c', ['C106'], 'the map of solovev.py'),
 (M, 'helixX', 'sin (2 * π * nfp * ζ + alpha)]', 'sin (2 * π * nfp * ζ)]', ['C107'], 'phase forgotten'),
 (M, 'helixX', '(1 + kappa * h * cos (2 * π * nfp * ζ + alpha)) * cos (2 * π * ζ)', '(1 + kappa * h * cos (2 * π * nfp * ζ + alpha)) * cos (2 * π * nfp * ζ)', ['C107'], 'axis winds nfp times'),
 (M, 'helixTau', '(norm3 (deriv (helixX h kappa alpha nfp) ζ))⁻¹ •', '', ['C107'], 'tangent not normalised'),
 (M, 'helixNu1', '(norm3 ν)⁻¹ • ν', 'ν', [], 'equivalent edit (normalised twice)'),
 (M, 'helixNu1', 'let ν := (norm3 dτ)⁻¹ • dτ\n  (norm3 ν)⁻¹ • ν', 'dτ', ['C107'], 'normal not normalised'),
 (M, 'helixNu2', 'crossProduct (helixTau h kappa alpha nfp ζ) (helixNu1 h kappa alpha nfp ζ)', 'crossProduct (helixNu1 h kappa alpha nfp ζ) (helixTau h kappa alpha nfp ζ)', ['C107'], 'orientation'),
 (M, 'helicalMap', 'epsilon * r * sin (2 * π * t)', 'epsilon * sin (2 * π * t)', ['C107'], 'radius forgotten'),
]
