# (module, definition, old, new, [claims broken], description)
S = 'Model.PlotScripts'; T = 'Model.Panels'
MUTATIONS = [
 (S, 'plotFile', '++ ".h5".toList', '', ['C112'], 'no extension appended'),
 (S, 'plotMapOf', 'if t = .str "tokamak".toList then tokamakOf c', 'if t = .str "tokamak".toList then ellipseOf c "m_rot"', ['C112'], 'ellipse for a tokamak'),
 (S, 'plotMapOf', '"KeyError: \'type\'"', '"KeyError: \'eps\'"', ['C112'], 'another exception without type'),
 (S, 'plotMapOf', 'c.get? "type".toList with', 'c.get? "boundary_type".toList with', ['C112'], 'boundary_type read (the intended key)'),
 (S, 'plotMapOf', 'ellipseOf c "m_rot"', 'tokamakOf c', ['C112'], 'tokamak for a rotating ellipse'),
 (S, 'plotMapOf', 'else .error "ValueError: Unknown configuration type."', 'else tokamakOf c', ['C112'], 'unknown types taken for a tokamak'),
 (S, 'plotMapOf', 'else .error "TypeError: helical_map() got an unexpected keyword argument \'n_turns\'"', 'else tokamakOf c', ['C112'], 'no exception for a helix'),
 (S, 'joinPath', 'else a ++ \'/\' :: b', 'else a ++ b', ['C112'], 'no separator'),
 (S, 'stepFile', '(toString i).toList', '(toString (i / 2)).toList', ['C112'], 'two steps into one file'),
 (S, 'plotDir', '"poincare".toList', '"plots".toList', ['C112'], 'another directory'),
 (S, 'plotFigures', 'List.range Bs.length', 'List.range (Bs.length - 1)', ['C112'], 'last field not drawn'),
 (S, 'plotFigures', 'Bs.getD i []', 'Bs.getD 0 []', ['C112'], 'first field in every figure'),
 (S, 'plotFigures', 'ps.getD i none', 'ps.getD 0 none', ['C112'], 'first pressure in every figure'),
 (S, 'openPlot', 'buildRun f.config F', 'buildRun f.config id', ['C112'], 'sequence on the cube'),
 (S, 'openPlot', '| none => .error "AttributeError: \'NoneType\' object has no attribute \'shape\'"', '| none => .ok ⟨D, []⟩', ['C112'], 'no exception without fields'),
 (S, 'plotMain', '| none => .error "KeyError: \'run_name\'"', '| none => openPlot dir mapOf fs "default".toList', ['C112'], 'default name'),
 (S, 'iterPlots', 'plotMain "iter"', 'plotMain "stell"', ['C112'], 'wrong directory'),
 (S, 'helixPlots', 'plotMain "helix"', 'plotMain "iter"', ['C112'], 'wrong directory'),
 (S, 'stellPlots', '"n_fp"', '"m_rot"', ['C112'], 'wrong key for the field periods'),
 (S, 'solovevPoincare', '"default".toList', '"default/default".toList', ['C112'], 'a name runs do write'),
 (T, 'slice', '(k - i) % s == 0', 'k % s == 0', ['C113'], 'offset forgotten'),
 (T, 'seeds', 'List.replicate (P.lines / s) t', 'List.replicate P.lines t', ['C113'], 'blocks of full length'),
 (T, 'seeds', 'linspace 0.01 0.99', 'linspace 0 1', ['C113'], 'seeds on the axis and the boundary'),
 (T, 'seeds', '![rt.1, rt.2, z]', '![rt.2, rt.1, z]', ['C113'], 'swapped coordinates'),
 (T, 'iterPlan', '⟨90,', '⟨91,', ['C113'], 'odd number of lines'),
 (T, 'helixPlan', '⟨100,', '⟨90,', ['C113'], 'not divisible by four'),
 (T, 'solovevPlan', '⟨90,', '⟨100,', ['C113'], 'not divisible by three'),
 (T, 'sortKey', 'Real.cos (x 1)', 'Real.cos (2 * Real.pi * x 1)', ['C113'], 'the intended key'),
 (T, 'getCrossings', 'getCrossings solve lo F B N (c', 'getCrossings solve lo F B N (x0', ['C113'], 'restart from the seed'),
 (T, 'getCrossings', '(1e-3 : ℝ) •', '(-1e-3 : ℝ) •', ['C113'], 'step backwards'),
 (T, 'normalise', 'if vmin = vmax then .ok 0', 'if vmin = vmax then .ok 1', ['C113'], 'last colour for a constant'),
 (T, 'normalise', '(v - vmin) / (vmax - vmin)', '(vmax - v) / (vmax - vmin)', ['C113'], 'reversed colours'),
 (T, 'cmapIndex', 'min 255', 'min 256', ['C113'], 'a colour that is not there'),
 (T, 'percentile', 'q / 100 * ((l.length : ℝ) - 1)', 'q / 100 * (l.length : ℝ)', ['C113'], 'n instead of n - 1'),
 (T, 'percentile', 'l.insertionSort (· ≤ ·)', 'l', ['C113'], 'not sorted'),
 (T, 'percentile', '(t - i) *', '(1 - (t - i)) *', ['C113'], 'reversed interpolation'),
 (T, 'stellStyle', 'some 1e-9', 'none', ['C113'], 'nothing skipped'),
 (T, 'helixStyle', '.pressure', '.iotaRange', ['C113'], 'iota in the helix figure'),
 (T, 'each', '| .error e => .error e', '| .error e => each f l', ['C113'], 'failures swallowed'),
 (T, 'wrap', 'Int.fract (c j)', 'c j', ['C113'], 'no wrapping'),
 (T, 'plotPoint', 'cylSigned (F c)', 'cylSigned c', ['C113'], 'logical coordinates drawn'),
 (T, 'allR', 'plotPoint F c 0', '|plotPoint F c 0|', ['C113'], 'gap from absolute values'),
 (T, 'allZ', 'plotPoint F c 2', 'plotPoint F c 0', ['C113'], 'height limits from the radius'),
 (T, 'pValue', 'p (wrap c)', 'p c', ['C113'], 'pressure at the unwrapped point'),
 (T, 'gapLeft', '0.95 * maxOf neg', '0.95 * minOf neg', ['C113'], 'gap at the outer edge'),
 (T, 'gapLeft', '0.95 * maxOf neg', '1.05 * maxOf neg', ['C113'], 'gap beyond the first point'),
 (T, 'gapRight', '0.95 * minOf pos', 'minOf pos', ['C113'], 'the nearest point cut off'),
 (T, 'gapRight', 'else 0.1', 'else -0.1', ['C113'], 'overlap without positive radii'),
 (T, 'span', 'max (gapLeft R', 'min (gapLeft R', ['C113'], 'the smaller span'),
 (T, 'span', '-0.01 + minOf R', 'minOf R', ['C113'], 'no margin'),
 (T, 'drawn', '!decide', 'decide', ['C113'], 'only the skipped lines drawn'),
 (T, 'iotaBar', 'some (minOf iotas, maxOf iotas)', 'some (0, maxOf iotas)', ['C113'], 'range from zero'),
 (T, 'iotaBar', 'percentile iotas 95', 'percentile iotas 99', ['C113'], 'another percentile'),
 (T, 'rightColour', 'colour b.1 b.2 l.iota', 'colour 0 (maxOf (allP st p ls)) (pValue st p c)', ['C113'], 'pressure on the right'),
 (T, 'dot', 'plotPoint F c 2', 'plotPoint F c 1', ['C113'], 'angle as ordinate'),
 (T, 'lineDots', 'plotPoint F c 0 < gapLeft (allR F ls)', 'plotPoint F c 0 < gapLeft (l.crossings.map fun c => plotPoint F c 0) - 0.1', ['C113'], 'mask with a margin'),
 (T, 'lineDots', 'gapRight (allR F ls) < plotPoint F c 0', 'gapLeft (allR F ls) < plotPoint F c 0', ['C113'], 'right panel from the left gap'),
 (T, 'lineDots', '.ok (a, b)', '.ok (b, a)', ['C113'], 'panels swapped'),
 (T, 'figure', 'xLeft := (gapLeft R - span R, gapLeft R)', 'xLeft := (-0.01 + minOf R, gapLeft R)', ['C113'], 'unequal widths'),
 (T, 'figure', 'xRight := (gapRight R, gapRight R + span R)', 'xRight := (gapRight R, gapRight R + span R - 0.02)', ['C113'], 'outermost point cut off'),
 (T, 'figure', 'pBar := (0, maxOf (allP st p ls))', 'pBar := (0, maxOf (pressuresOf p ls))' , ['C113'], 'bar without the factor'),
 (T, 'figure', 'ls.filter (drawn st)', 'ls', ['C113'], 'skipped lines drawn'),
]
MUTATIONS = [m for m in MUTATIONS if 'pressuresOf' not in m[3]]
