# (module, definition, old, new, [claims broken], description)
M = 'Model.Multiplot'; L = 'Model.LazyDispatch'
MUTATIONS = [
 (M, 'column', '| none, _ => .error "KeyError"', '| none, r => r', ['C114'], 'runs without the key are skipped'),
 (M, 'plasmaIndex', 'min 255 (256 * i / k)', 'min 255 (256 * i / (k + 1))', ['C114'], 'colours up to k/(k+1) only: 256 values collide'),
 (M, 'plasmaIndex', 'min 255 (256 * i / k)', 'min 255 (255 * i / k)', ['C114'], 'table of 255 colours'),
 (M, 'plasmaIndex', 'min 255 (256 * i / k)', 'min 255 i', ['C114'], 'colours by index: harmless for the legend claims'),
 (M, 'styleIndex', 'i % 5', 'i % 4', ['C114'], 'four line styles'),
 (M, 'styleIndex', 'i % 5', 'min i 4', ['C114'], 'last style repeated (the same five-value bound)'),
 (M, 'colourOf', 'idxOf v)', 'idxOf v / 2)', ['C114'], 'two values share a colour'),
 (M, 'styleOf', 'idxOf v)', 'idxOf v + 1)', ['C114'], 'styles start with the second'),
 (M, 'colourLegend', '.colour (colourOf vals v) v', '.colour ((distinct vals).idxOf v) v', ['C114'], 'legend with other colours than the curves'),
 (M, 'colourLegend', '(distinct vals).map', '(distinct vals).tail.map', ['C114'], 'first value missing in the legend'),
 (M, 'styleLegend', '.style (styleOf vals v) v', '.style ((distinct vals).idxOf v) v', ['C114'], 'legend styles not taken modulo 5'),
 (M, 'styleLegend', '.style (styleOf vals v) v', '.colour (styleOf vals v) v', ['C114'], 'styles shown as colours'),
 (M, 'fixedLegend', '| _ => .error "ValueError: parameter is not constant across cfgs"', '| v :: _ => .ok [.fixed key v]\n      | [] => .error "ValueError"', ['C114'], 'first value shown although not constant'),
 (M, 'extraLegend', '| .ok l => .ok (.fixedHeading :: l)', '| .ok _ => .ok []', ['C114'], 'fixed parameters not listed'),
 (M, 'drawAll', 'if iter.length = trace.length then', 'if iter.length ≤ trace.length then', ['C114'], 'shorter abscissae accepted'),
 (M, 'drawAll', '⟨c, s, iter, trace⟩ :: l', '⟨s, c, iter, trace⟩ :: l', ['C114'], 'colour and style swapped'),
 (M, 'drawAll', '⟨c, s, iter, trace⟩ :: l', '⟨c, s, iter, trace⟩ :: l.tail', ['C114'], 'next curve dropped'),
 (M, 'plotTraces', 'if p = q ∧ cfgs.zip (traces.zip iters) ≠ [] then', 'if False then', ['C114'], 'twice the same parameter accepted'),
 (M, 'plotTraces', '(fun c => (c.get? q).map (styleOf qs)) (cfgs.zip', '(fun c => (c.get? p).map (styleOf ps)) (cfgs.zip', ['C114'], 'line style by the first parameter'),
 (M, 'plotTraces', '.ok ⟨cs, colourLegend p ps ++ styleLegend q qs ++ l⟩', '.ok ⟨cs, colourLegend p ps ++ l⟩', ['C114'], 'second legend missing'),
 (M, 'plotTraces', '(fun _ => some 0)', '(fun _ => some 1)', ['C114'], 'dashed with one parameter'),
 (M, 'absDiff', '.fin |a - b|', '.fin (a - b)', ['C114'], 'no absolute value'),
 (M, 'quantities', '("helicity_trace", true)', '("helicity_trace", false)', ['C114'], 'helicity without difference'),
 (M, 'quantities', ', ("timesteps", false)]', ']', ['C114'], 'a quantity missing'),
 (M, 'stepSizes', '(1 / 10 ^ 5, "1e-05")', '(1 / 10 ^ 5, "1e-06")', ['C114'], 'two step sizes write the same file'),
 (M, 'stepSizes', ', (1 / 10 ^ 4, "0.0001")]', ']', ['C114'], 'a step size missing'),
 (M, 'sweepTraces', 'List.zipWith absDiff t t0', 't.map fun x => absDiff x (t.headD .nan)', ['C114'], 'the fixed program: difference to the own start'),
 (M, 'sweepTraces', 'if qoi = "energy_diff_trace" then', 'if qoi = "force_trace" then', ['C114'], 'absolute value of the wrong quantity'),
 (M, 'sweepTraces', '(ts.headD []).length', '(ts.headD []).length + 1', ['C114'], 'lengths compared wrongly'),
 (M, 'sweepIters', '(save * k : ℝ)', '(save * (k + 1) : ℝ)', ['C114'], 'abscissae shifted by one'),
 (M, 'sweepIters', '(List.range t.length)', '(List.range (t.length - 1))', ['C114'], 'one abscissa too few'),
 (M, 'saveEvery', '| some (.int n) => n', '| some (.int n) => n + 1', ['C114'], 'wrong stride'),
 (M, 'withStep', 'if v = dt then (c, b) :: l else l', '(c, b) :: l', ['C114'], 'runs with all step sizes in every figure'),
 (M, 'figureFile', '++ qoi ++ "_dt_"', '++ "_dt_"', ['C114'], 'quantities overwrite each other'),
 (M, 'untilError', '(b :: (untilError rest).1, (untilError rest).2)', '(b :: (untilError rest).1, none)', ['C114'], 'exception swallowed'),
 (M, 'stepFigure', '["n_r".toList, "dt_max".toList]', '["n_r".toList, "dt".toList]', ['C114'], 'second parameter dt'),
 (M, 'stepFigure', '(some ["dt".toList])', 'none', ['C114'], 'no check of the fixed parameter: empty figures'),
 (M, 'quantityFigures', '["dt_max".toList, "n_r".toList, "n_chi".toList, "dt".toList]', '["dt_max".toList, "n_r".toList, "n_chi".toList]', ['C114'], 'dt not swept'),
 (M, 'attrOf', '| .float x => .num (.fin x)', '| .float x => .num (.fin (x + 1))', ['C114'], 'attribute stored wrongly (no claim about run values)'),
 (M, 'asH5', '(e.1, attrOf e.2)', '("dt_max".toList, attrOf e.2)', ['C114'], 'every attribute named dt_max'),
 (L, 'Arr2.matmul', 'if h : a.cols = b.rows then', 'if h : a.cols = b.rows ∧ a.rows = a.rows then let h := h.1;', ['C37'], 'equivalent condition (control)'),
 (L, 'lazyDerivativeAssemble', 'else if Λ0.dims.k = 1 then some ⟨Λ1.dims.n, Λ0.dims.n, lazyCurl Q F Λ0 Λ1⟩', 'else if Λ0.dims.k = 1 then some ⟨Λ1.dims.n, Λ0.dims.n, lazyDiv Q F Λ0 Λ1⟩', ['C37'], 'div for 1-forms'),
 (L, 'lazyDerivativeAssemble', 'some ⟨Λ0.dims.n, Λ1.dims.n, 0⟩', 'some ⟨Λ1.dims.n, Λ0.dims.n, 0⟩', ['C37'], 'the fixed program: right shape'),
 (L, 'lazyDerivativeAssemble', 'else none', 'else some ⟨Λ1.dims.n, Λ0.dims.n, 0⟩', ['C37'], 'zero matrix for vector fields'),
 (L, 'lazyDerivativeMatrix', 'B.matmul e0.T', 'B.matmul e0', ['C37'], 'no transpose'),
 (L, 'lazyDerivativeMatrix', 'E1.getD (Arr2.eye Λ1.dims.n)', 'E0.getD (Arr2.eye Λ1.dims.n)', ['C37'], 'E0 used twice'),
]
