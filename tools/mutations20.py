S = 'Model.SinglePlot'
M = 'Model.Multiplot'
MUTATIONS = [
 (M, 'stepSizes', '(1 / 10 ^ 5, "1e-05")', '(1 / 10 ^ 5, "1e-06")', ['C114'], 'two step sizes write the same file (again, after tightening C114_file_names)'),
 (M, 'stepSizes', '(1 / 10 ^ 5, "1e-05"), (1 / 10 ^ 4, "0.0001")', '(1 / 10 ^ 4, "1e-05"), (1 / 10 ^ 5, "0.0001")', ['C114'], 'two step sizes swapped'),
 (S, 'inputFile', '".h5"', '".hdf5"', ['C115'], 'reads another file (which no run writes either)'),
 (S, 'figureFile', '_trace_plot.pdf', '_plot.pdf', ['C115'], 'writes another file'),
 (S, 'datasets', '"divergence_B_trace"', '"divergence_trace"', ['C115'], 'reads the dataset the runs write'),
 (S, 'datasets', ', "picard_errors"', '', ['C115'], 'one dataset is not read'),
 (S, 'readAll', '("KeyError: " ++ k)', '("KeyError: ")', ['C115'], 'the missing dataset is not named'),
 (S, 'readAll', 'isNone', 'isSome', ['C115'], 'raises for datasets that are there'),
 (S, 'change', '|x - a.headD 0|', '(x - a.headD 0)', ['C115'], 'absolute value forgotten'),
 (S, 'change', 'a.headD 0', 'a.getLastD 0', ['C115'], 'difference to the last entry'),
 (S, 'ticks', '* 5000', '* 1000', ['C115'], 'ticks at another distance'),
 (S, 'ticks', '(m + 1)', 'm', ['C115'], 'last tick missing if the last iteration is a multiple of 5000'),
 (S, 'figure', 'top := (0.9 * minOf force, 1.5 * maxOf force)', 'top := (1.1 * minOf force, 1.5 * maxOf force)', ['C115'], 'smallest force cut off'),
 (S, 'figure', 'top := (0.9 * minOf force, 1.5 * maxOf force)', 'top := (0.9 * minOf force, maxOf force)', ['C115'], 'greatest force on the edge'),
 (S, 'figure', '2 * max (maxOf (change hel)) (maxOf div)', '2 * min (maxOf (change hel)) (maxOf div)', ['C115'], 'one of the curves cut off'),
 (S, 'figure', '2 * max (maxOf (change hel)) (maxOf div)', '2 * maxOf (change hel)', ['C115'], 'divergence cut off'),
 (S, 'figure', 'divergence := change div', 'divergence := div', ['C115'], 'the norm itself is drawn (the label is right)'),
 (S, 'figure', 'helicity := change hel', 'helicity := change div', ['C115'], 'wrong curve'),
 (S, 'figure', 'force := force', 'force := hel', ['C115'], 'wrong curve'),
 (S, 'figure', 'toInt (x / 1000)', 'toInt x', ['C115'], 'labels not in thousands'),
 (S, 'figure', 'toInt (x / 1000)', 'toInt (x / 5000)', ['C115'], 'labels count the ticks'),
 (S, 'maxOf', 'max x', 'min x', ['C115'], 'minimum for maximum'),
 (S, 'minOf', 'min x', 'max x', ['C115'], 'maximum for minimum'),
 (S, 'figureOf', '"divergence_B_trace"', '"energy_trace"', ['C115'], 'another trace is drawn as divergence'),
 (S, 'figureOf', '"helicity_trace"', '"energy_trace"', ['C115'], 'another trace is drawn as helicity'),
 (S, 'meanPressure', 'D.g.J j * D.S.Q.w.getD j 0', 'D.S.Q.w.getD j 0', ['C115'], 'divided by the volume of the logical cube'),
 (S, 'meanPressure', '(fun _ _ => 1)', '(fun _ _ => 2)', ['C115'], 'twice the mean'),
 (S, 'beta', 'energy.getLast?', 'energy.head?', ['C115'], 'first energy'),
 (S, 'beta', 'FV.div (.fin pAvg) e', 'FV.div e (.fin pAvg)', ['C115'], 'ratio inverted'),
 (S, 'numbersOf', 'Bs.getLast?, ps.getLast?', 'Bs.getLast?, ps.head?', ['C115'], 'first pressure'),
 (S, 'numbersOf', '(trace f "energy_trace")', '(trace f "force_trace")', ['C115'], 'force for energy'),
 (S, 'numbersOf', '| false, _ => .error "NameError: name \'B_fields\' is not defined"', '| false, _ => .ok none', ['C115'], 'no error without the fields'),
 (S, 'load', 'match plotMapOf f.config with', 'match tokamakOf f.config with', ['C115'], 'every device is drawn as a tokamak'),
 (S, 'load', '(f, saved, D)', '(f, true, D)', ['C115'], 'save_B ignored'),
 (S, 'singlePlot', '| .ok fig => (some fig, numbersOf f saved D)', '| .ok fig => (none, numbersOf f saved D)', ['C115'], 'figure not saved'),
]
