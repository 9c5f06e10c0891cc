# (module, definition, old, new, [claims broken], description)
F = 'Model.Figures'
MUTATIONS = [
 (F, 'dropSlash', "filename.dropLast else filename", "filename else filename", ['C102'], 'trailing slash kept'),
 (F, 'energyFigure', 'e0.sub e', 'e.sub e0', ['C102'], 'energy change with the wrong sign'),
 (F, 'energyFigure', 'List.range E.length).map fun (i : Nat) => .fin i', 'List.range E.length).map fun (i : Nat) => .fin (i + 1)', ['C102'], 'abscissas shifted by one'),
 (F, 'forceFigure', 'plot iterations velocity', 'plot iterations force', ['C102'], 'force drawn twice'),
 (F, 'forceFigure', 'plot wallTime (divergence', 'plot iterations (divergence', ['C102'], 'divergence against the iterations'),
 (F, 'forceFigure', '(h.sub h0).abs', 'h.sub h0', ['C102'], 'signed helicity change'),
 (F, 'tracePlot', 'item d "velocity_trace"', 'item d "force_trace"', ['C102'], 'wrong key'),
 (F, 'tracePlot', '| .error e => ([fig1], some e)', '| .error _ => ([fig1], none)', ['C102'], 'error swallowed'),
 (F, 'torusColour', 'lo + 1e-12', 'lo', ['C103'], 'no guard against constant values'),
 (F, 'torusColour', '(v - lo) / (hi - lo)', '(v - lo) / hi', ['C103'], 'wrong scale'),
 (F, 'crossectionColour', 'some ((v - minOf vals) / (maxOf vals - minOf vals))', 'some ((v - minOf vals) / maxOf vals)', ['C103'], 'wrong scale'),
 (F, 'crossectionColour', 'some ((v - minOf vals)', 'some ((maxOf vals - v)', ['C103'], 'colour map reversed'),
 (F, 'poloidal', 'y 0 ^ 2 + y 1 ^ 2', 'y 0 ^ 2 + y 2 ^ 2', ['C103'], 'wrong radius'),
 (F, 'labels', 'zetas.take n', 'zetas', [], 'labels not cut (zipWith cuts them: equivalent)'),
 (F, 'labels', 'n ≤ zetas.length', 'n < zetas.length', ['C103'], 'one label more required'),
 (F, 'crossectionsSeparate', 'grids.length = 1 then', 'grids.length = 2 then', ['C103'], 'fails for two cuts'),
 (F, 'crossectionsSeparate', 'minOf (grids.map fun g => minOf (R g))', 'maxOf (grids.map fun g => minOf (R g))', ['C103'], 'limit cuts off the left part'),
 (F, 'crossectionsSeparate', 'maxOf (grids.map fun g => maxOf (Z g))', 'maxOf (grids.map fun g => maxOf (R g))', ['C103'], 'vertical limit from the radii'),
 (F, 'pressureOutline', 'F ![1, t, 0] 2', 'F ![1, t, 0] 1', ['C103'], 'outline in the wrong plane'),
 (F, 'pressureGrid', 'zeta 2 {', 'zeta 1 {', ['C103'], 'cut along the wrong axis'),
 (F, 'pressureGrid', 'tol1 := tol', 'tol2 := tol', ['C103'], 'tolerance passed to the angle'),
 (F, 'pressureContour', 'some (y 0, y 2, v)', 'some (y 0, y 1, v)', ['C103'], 'contour in the wrong plane'),
 (F, 'planeOf', '.ok .rZeta', '.ok .thetaZeta', ['C103'], 'wrong plane for rz'),
 (F, 'planeOf', '"rt", ', '', ['C103'], 'name missing'),
 (F, 'physicalPanel', '"rθ", ', '', ['C103'], 'panel not drawn for rθ'),
 (F, 'planePoint', '![t i, fixedTheta, t j]', '![t j, fixedTheta, t i]', ['C103'], 'axes swapped'),
 (F, 'planePoint', '![fixedR, t i, t j]', '![fixedTheta, t i, t j]', ['C103'], 'wrong fixed coordinate'),
 (F, 'planePoints', '(List.range n).flatMap fun i => (List.range n).map fun j => planePoint pl n fixedR fixedTheta fixedZeta i j', '(List.range n).flatMap fun j => (List.range n).map fun i => planePoint pl n fixedR fixedTheta fixedZeta i j', ['C103'], 'xy indexing'),
 (F, 'planeAxes', '(x 1, x 2)', '(x 0, x 2)', ['C103'], 'wrong axis of the logical panel'),
 (F, 'plotScalar', 'some (y 0, y 2, v * scale)', 'some (y 0, y 1, v * scale)', ['C103'], 'physical panel in the wrong plane'),
 (F, 'plotScalar', '(planeAxes pl y).2, v * scale', '(planeAxes pl y).2, v', ['C103'], 'logical panel not scaled'),
 (F, 'twinX', '(i : ℝ) * inner', '(i : ℝ)', ['C103'], 'inner iterations ignored'),
 (F, 'plotTwinAxis', 'plot (twinX xr inner right) right', 'plot (twinX xl inner right) right', ['C103'], 'abscissas of the other side'),
 (F, 'mergeStyle', 'PyDict.update base kwargs', 'PyDict.update kwargs base', ['C103'], 'defaults win'),
 (F, 'markerIndex', 'j % nBase', 'min j (nBase - 1)', [], 'last marker repeated (the claim still holds)'),
 (F, 'convergeTraces', 'err i j k, markerIndex', 'err i k j, markerIndex', ['C103'], 'order and rule swapped'),
]
