# (module, definition, old, new, [claims broken], description)
S = 'Model.Studies'; T = 'Model.ToroidScript'
MUTATIONS = [
 (S, 'zeros', 'List.replicate a (List.replicate b 0)', 'List.replicate b (List.replicate a 0)', ['C110'], 'transposed table'),
 (S, 'setEntry', 't.modify i (fun row => row.set j v)', 't.modify j (fun row => row.set i v)', ['C110'], 'swapped indices'),
 (S, 'entry', '(t.getD i []).getD j 0', '(t.getD j []).getD i 0', ['C110'], 'transposed reading'),
 (S, 'pairs', '((ni.2, pj.2), (ni.1, pj.1))', '((ni.2, pj.2), (pj.1, ni.1))', ['C110'], 'get_err(p, n)'),
 (S, 'pairs', 'ns.zipIdx.flatMap', 'ns.zipIdx.tail.flatMap', ['C110'], 'first number of splines skipped'),
 (S, 'pass', 'clock (2 * c + 1) - clock (2 * c)', 'clock (2 * c + 1) - clock 0', ['C110'], 'start time not reset'),
 (S, 'pass', 'if store then setEntry err i j v else err', 'if store then err else setEntry err i j v', ['C110'], 'errors stored in the wrong pass'),
 (S, 'pass', '| .error e => .error e', '| .error e => pass call clock store rest (c + 1) err times', ['C110'], 'failures swallowed'),
 (S, 'pass', 'pass call clock store rest (c + 1)', 'pass call clock store rest c', ['C110'], 'calls not counted'),
 (S, 'run', '(pairs ns ps) c err', '(pairs ns ps) c (zeros ns.length ps.length)', ['C110'], 'errors of the first pass forgotten'),
 (S, 'run', '.ok ⟨err\', times, times2⟩', '.ok ⟨err\', times2, times⟩', ['C110'], 'swapped times'),
 (S, 'run', '.ok ⟨err\', times, times2⟩', '.ok ⟨err, times, times2⟩', ['C110'], 'errors of the first pass returned'),
 (S, 'arange', '(b - a + s - 1) / s', '(b - a) / s + 1', ['C110'], 'end included'),
 (S, 'columns', 'entry t ni.2 pj.2', 'entry t pj.2 ni.2', ['C110'], 'rows drawn instead of columns'),
 (S, 'columns', '((ni.1 : ℝ)', '((ni.2 : ℝ)', ['C110'], 'index on the axis'),
 (S, 'speedups', 'entry r.times ni.2 pj.2 / entry r.times2 ni.2 pj.2', 'entry r.times2 ni.2 pj.2 / entry r.times ni.2 pj.2', ['C110'], 'inverse speed-up'),
 (S, 'expectedRate', '2 * p - 1 *', '2 * p + 1 *', ['C110'], 'wrong rate'),
 (S, 'references', '^ (-expectedRate pj.1)', '^ (expectedRate pj.1)', ['C110'], 'growing reference line'),
 (S, 'references', 'ns.length - 1', '0', ['C110'], 'anchored at the first number'),
 (S, 'polarErr', 'polarMap true true', 'polarMap true false', ['C110'], 'no Dirichlet condition'),
 (S, 'polarErr', 'Manufactured.polarF', 'Manufactured.polarU', ['C110'], 'wrong source'),
 (S, 'mixedErr', 'polarMap true false', 'polarMap true true', ['C110'], 'Dirichlet condition'),
 (S, 'mixedErr', 'D.phys3 (D.poisson3', 'D.phys3 (-D.poisson3', ['C110'], 'wrong sign'),
 (S, 'toroidErr', '(p, p, p) q', '(p, p, 0) q', ['C110'], 'degree 0 along the torus'),
 (S, 'toroidErr', 'toroidMap (1 / 3) 1 1', 'toroidMap (1 / 2) 1 1', ['C110'], 'wrong torus'),
 (T, 'sparsity', '1e-12 < |A ij.1 ij.2|', '|A ij.1 ij.2| < 1e-12', ['C111'], 'fraction of zeros'),
 (T, 'sparsity', '1e-12 < |A ij.1 ij.2|', '1e-12 < A ij.1 ij.2', ['C111'], 'no modulus'),
 (T, 'sparsity', '((m * m : Nat) : ℝ)', '((m : Nat) : ℝ)', ['C111'], 'divided by the number of rows'),
 (T, 'getErr', '(p, p, p) p (', '(p, p, p) (p + 1) (', ['C111'], 'more quadrature points'),
 (T, 'getErr', 'Manufactured.toroidU2)', 'Manufactured.toroidU)', ['C111'], 'exact solution of the tutorial'),
 (T, 'getErr', 'cond D.m0 (D.M0 * D.dd0), sparsity', 'cond D.m0 D.dd0, sparsity', ['C111'], 'condition number of another matrix'),
 (T, 'writeFile', 'if q = path then some lines else fs q', 'if q = path then some (lines ++ (fs q).getD []) else fs q', ['C111'], 'appended'),
 (T, 'outPath', 'n.repr ++ "_" ++ p.repr', 'n.repr ++ p.repr', ['C111'], 'no separator'),
 (T, 'outPath', 'n.repr ++ "_" ++ p.repr', 'n.repr ++ "_" ++ n.repr', ['C111'], 'degree missing'),
 (T, 'main', 'argv.length < 3', 'argv.length < 2', ['C111'], 'argument count'),
 (T, 'main', 'argv.length < 3', 'argv.length ≠ 3', ['C111'], 'extra arguments refused'),
 (T, 'main', '"sparsity " ++ fmt sparsity, "cond " ++ fmt cond', '"sparsity " ++ fmt cond, "cond " ++ fmt sparsity', ['C111'], 'swapped values'),
 (T, 'main', '| .error e => (.raised e, fs)', '| .error e => (.raised e, writeFile fs (outPath n p) [])', ['C111'], 'file opened before the computation'),
 (T, 'main', 'parse (argv.getD 1 ""), parse (argv.getD 2 "")', 'parse (argv.getD 2 ""), parse (argv.getD 1 "")', ['C111'], 'swapped arguments'),
 (T, 'main', '| _, _ => (.code1, fs)', '| _, _ => (.raised "ValueError", fs)', ['C111'], 'the docstring'),
 (T, 'ciCalls', '"8", "3"', '"3", "8"', ['C111'], 'swapped arguments'),
 (T, 'firstOk', '| (_, fs\') => firstOk parse fmt getErr rest fs\'', '| (_, fs\') => (false, fs\')', ['C111'], 'no fallback'),
]
