G = 'Model.SolovevPlots'
MUTATIONS = [
 (G, 'savedDir', '"script_outputs/solovev/"', '"script_outputs/iter/"', ['C124'], 'other directory'),
 (G, 'savedFile', 'savedDir name ++ name ++ ".h5"', 'savedDir name ++ ".h5"', ['C124'], 'name forgotten'),
 (G, 'savedFile', '".h5".toList', '".h5.h5".toList', ['C124'], 'extension twice'),
 (G, 'padded', 'List.replicate (w - (Nat.toDigits 10 n).length)', 'List.replicate w', ['C124'], 'always w zeros'),
 (G, 'padded', "'0'", "'1'", ['C124'], 'padded with ones'),
 (G, 'padded', "Nat.toDigits 10 n\n", "(Nat.toDigits 10 n).take w\n", ['C124'], 'truncated to the width'),
 (G, 'format06', 'padded 6 z.natAbs', 'padded 5 z.natAbs', ['C124'], 'width 5'),
 (G, 'format06', "'-' :: padded 5 z.natAbs", "padded 6 z.natAbs", ['C124'], 'sign dropped (names still distinct: one sign per run)'),
 (G, 'pressureFile', 'i * saveEvery', 'saveEvery', ['C124'], 'index forgotten'),
 (G, 'pressureFile', 'i * saveEvery', 'i', ['C124'], 'save_every forgotten'),
 (G, 'pressureFile', '"p_iter_"', '"p_final"', ['C124'], 'other prefix'),
 (G, 'savedMapOf', 'cerfonMap e k (arcsin d) r', 'cerfonMap e k (arcsin d) 1.0', ['C124'], 'finding repaired for R_0'),
 (G, 'savedMapOf', 'cerfonMap e k (arcsin d) r', 'cerfonMap e k d r', ['C124'], 'arcsine forgotten'),
 (G, 'savedMapOf', 'cerfonMap e k (arcsin d) r', 'cerfonMap k e (arcsin d) r', ['C124'], 'eps and kappa exchanged'),
 (G, 'savedSequence', 'true true', 'true false', ['C124'], 'without Dirichlet conditions'),
 (G, 'savedSequence', 'pointsOf ps', 'pointsOf ps + 1', ['C124'], 'one more quadrature point'),
 (G, 'fieldFigures', 'List.range ps.length', 'List.range (ps.length - 1)', ['C124'], 'last field forgotten'),
 (G, 'fieldFigures', 'ps.getD i none', 'ps.getD (i + 1) none', ['C124'], 'next pressure'),
 (G, 'fieldFigures', '| true, some', '| false, some', ['C124'], 'flag negated'),
 (G, 'generatePlots', 'f.pfinal) :: figs', 'some f.Bfinal) :: figs', ['C124'], 'field instead of pressure'),
 (G, 'generatePlots', '"p_final.pdf"', '"p_iter_000000.pdf"', ['C124'], 'first figure overwritten'),
 (G, 'generatePlots', 'savedDir name,', '"script_outputs/solovev/".toList,', ['C124'], 'directory of all runs'),
 (G, 'solovevPlots', '| some _ => .error "TypeError"', '| some _ => generatePlots zero fs []', ['C124'], 'other names taken for empty'),
 (G, 'solovevPlots', 'generatePlots zero fs name', 'generatePlots zero fs (name ++ name)', ['C124'], 'other name'),
]
