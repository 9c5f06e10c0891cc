G = 'Model.EigenPlots'
MUTATIONS = [
 (G, 'selectPairs', 'a.1 ≤ b.1', 'b.1 ≤ a.1', ['C120'], 'sorted in decreasing order'),
 (G, 'selectPairs', 'insertionSort fun a b => a.1 ≤ b.1', 'insertionSort fun a b => a.1 < b.1', ['C120'], 'sort that reverses ties'),
 (G, 'selectPairs', '(pairs.filterMap fun p => p.1.map fun w => (w, p.2))', '(pairs.map fun p => (p.1.getD 0, p.2))', ['C120'], 'undefined values read as zero'),
 (G, 'spectrumPoints', '(List.range (evs.take last).length)', '((List.range (evs.take last).length).map (· + 1))', ['C120'], 'points counted from one'),
 (G, 'spectrumPoints', '.zip (evs.take last)', '.zip (evs.drop last)', ['C120'], 'the other values'),
 (G, 'spectrumPoints', '(List.range (evs.take last).length).zip (evs.take last)', '(List.range (evs.take last).length).zip (evs.take (last - 1))', ['C120'], 'last value left out'),
 (G, 'sectionPoints', '[x3]', '[0]', ['C120'], 'section at zero'),
 (G, 'sectionPoints', 'linspace eps (1 - eps) nx) [x3]', 'linspace 0 1 nx) [x3]', ['C120'], 'angle over the whole interval'),
 (G, 'sectionPoints', 'meshPoints (linspace eps (1 - eps) nx)', 'meshPoints (linspace eps 1 nx)', ['C120'], 'radius up to the boundary'),
 (G, 'firstPart', 'v (Fin.castAdd r i)', '-v (Fin.castAdd r i)', ['C120'], 'sign of the coefficients (the panels show norms)'),
 (G, 'firstPart', 'v (Fin.castAdd r i)', '2 * v (Fin.castAdd r i)', ['C120'], 'coefficients scaled'),
 (G, 'modeForm', '(x 0, x 1, x 2) c', '(x 0, x 2, x 1) c', ['C120'], 'coordinates exchanged'),
 (G, 'modeForm', '(x 0, x 1, x 2) c', '(x 0, x 1, x 2) 0', ['C120'], 'first component for all'),
 (G, 'modeField', 'Pushforward.vector 1', 'Pushforward.vector 2', ['C120'], 'pushed forward as a 2-form'),
 (G, 'modeField', '(Pushforward.vector 1 (modeForm Λ1 E1 dof) F x).getD 0', 'modeForm Λ1 E1 dof x', ['C120'], 'not pushed forward'),
 (G, 'panelEntry', 'some (y 0, y ax, z)', 'some (y ax, y 0, z)', ['C120'], 'axes exchanged'),
 (G, 'panelEntry', 'some (y 0, y ax, z)', 'some (y 0, y 1, z)', ['C120'], 'always the second coordinate'),
 (G, 'panelEntry', 'vnorm (modeField Λ1 E1 F dof p)', 'vnorm (modeForm Λ1 E1 dof p)', ['C120'], 'norm of the logical components'),
 (G, 'panelEntry', 'reshape2 (x.map F) nx i j', 'reshape2 (x.map F) nx j i', ['C120'], 'grid of positions transposed'),
 (G, 'panelEntry', 'dof p)) nx i j with', 'dof p)) nx j i with', ['C120'], 'values transposed'),
 (G, 'panelEntry', 'reshape2 (x.map F) nx i j', 'reshape2 x nx i j', ['C120'], 'logical positions'),
 (G, 'drawPanels', 'if i < nAxes', 'if i ≤ nAxes', ['C120'], 'one axis more'),
 (G, 'drawPanels', '.ok (draw i :: ps)', '.ok (draw 0 :: ps)', ['C120'], 'the first mode in all panels'),
 (G, 'drawPanels', '.ok (draw i :: ps)', '.ok (ps ++ [draw i])', ['C120'], 'panels in the opposite order'),
 (G, 'drawPanels', '.error .indexError', '.ok []', ['C120'], 'modes without axes ignored'),
 (G, 'plotEigenvectorsGrid', 'if num > c then c else num', 'num', ['C120'], 'number of panels not limited'),
 (G, 'plotEigenvectorsGrid', 'let side := Nat.sqrt num', 'let side := Nat.sqrt num + 1', ['C120'], 'grid with a row more'),
 (G, 'plotEigenvectorsGrid', 'if side = 0 then .error .valueError', 'if num = 1 then .error .valueError', ['C120'], 'empty grid accepted'),
 (G, 'plotEigenvectorsGrid', 'else if side = 1 then .error .attributeError', 'else if side = 2 then .error .attributeError', ['C120'], 'fails for grids of two rows'),
 (G, 'plotEigenvectorsGrid', 'firstPart (column i)', 'firstPart (column (i + 1))', ['C120'], 'modes shifted by one'),
 (G, 'plotEigenvectorsGrid', 'evecs ⟨i, h⟩ else 0', 'evecs ⟨0, by omega⟩ else 0', ['C120'], 'always the first mode'),
 (G, 'plotEigenvectorsGrid', '.drop num⟩', '.drop (num + 1)⟩', ['C120'], 'one empty axis kept (no axis is ever removed)'),
 (G, 'plotEigenvectorsGrid', '(List.range (side * side)).drop num⟩', '(List.range num)⟩', ['C120'], 'the drawn axes removed'),
 (G, 'modeArrow', '((y 0, y 2), (u 0, u 2))', '((y 0, y 2), (u 0, u 1))', ['C120'], 'second component of the field'),
 (G, 'modeArrow', '((y 0, y 2), (u 0, u 2))', '((y 0, y 1), (u 0, u 2))', ['C120'], 'second coordinate of the position'),
 (G, 'modeArrow', '((y 0, y 2), (u 0, u 2))', '((y 0, y 2), (-u 0, -u 2))', ['C120'], 'arrows reversed'),
 (G, 'modeArrow', 'reshape2 (x.map (modeField Λ1 E1 F dof)) nx i j', 'reshape2 (x.map (modeField Λ1 E1 F dof)) nx j i', ['C120'], 'arrows transposed'),
 (G, 'drumMode', 'D.S.L0 v D.E0', 'D.S.L0 (2 • v) D.E0', ['C120'], 'mode scaled'),
 (G, 'drumMode', '(x 0, x 1, x 2) 0', '(x 1, x 0, x 2) 0', ['C120'], 'coordinates exchanged'),
 (G, 'signedMode', 'drumMode D v ![0, 0, 0] < 0', '0 < drumMode D v ![0, 0, 0]', ['C120'], 'sign test inverted'),
 (G, 'signedMode', 'then -drumMode D v x', 'then drumMode D v x', ['C120'], 'sign never changed'),
 (G, 'signedMode', 'drumMode D v ![0, 0, 0] < 0', 'drumMode D v x < 0', ['C120'], 'absolute value'),
 (G, 'signedMode', '![0, 0, 0] < 0', '![1, 0, 0] < 0', ['C120'], 'sign tested at the boundary'),
 (G, 'drumGrid', '(linspace 0 1.0 64) [0]', '(linspace 0 0.5 64) [0]', ['C120'], 'half of the drum'),
 (G, 'drumGrid', '(linspace 0 1.0 64) [0]', '(linspace 0 1.0 32) [0]', ['C120'], 'fewer angles'),
 (G, 'drumContour', 'some (y 0, y 2, u)', 'some (y 0, y 1, u)', ['C120'], 'vanishing coordinate drawn'),
 (G, 'drumContour', 'signedMode D v', 'drumMode D v', ['C120'], 'sign not fixed'),
 (G, 'drumContour', 'reshape2 (drumGrid.map F) 64 i j', 'reshape2 (drumGrid.map F) 64 j i', ['C120'], 'positions transposed'),
 (G, 'numbered', '(· + 1)', '(· + 0)', ['C120'], 'counted from zero'),
 (G, 'relDiff', '|(c - t) / t|', '|(c - t) / c|', ['C120'], 'relative to the fitted values'),
 (G, 'relDiff', '|(c - t) / t|', '(c - t) / t', ['C120'], 'signed differences'),
 (G, 'relDiff', '|(c - t) / t|', '|c - t|', ['C120'], 'absolute differences'),
 (G, 'lossPanel', '| some [] => .error .indexError', '| some [] => .ok none', ['C120'], 'empty history accepted'),
 (G, 'lossPanel', '1.1 * l0', '1.1 * (l0 :: ls).getLastD 0', ['C120'], 'limit from the last loss'),
 (G, 'lossPanel', '(List.range (ls.length + 1)).zip (l0 :: ls)', '(List.range ls.length).zip (l0 :: ls)', ['C120'], 'last loss left out'),
 (G, 'plotReconstruction', 'take targetEvs.length', 'take (targetEvs.length - 1)', ['C120'], 'one eigenvalue fewer'),
 (G, 'plotReconstruction', 'if current.length ≠ targetEvs.length then .error .valueError', 'if current.length < 1 then .error .valueError', ['C120'], 'lengths not compared'),
 (G, 'plotReconstruction', 'r.2.col ⟨0, h⟩', 'r.2.row ⟨0, h⟩', ['C120'], 'row of the eigenvector matrix'),
 (G, 'plotReconstruction', 'numbered (relDiff current targetEvs)', 'numbered (relDiff targetEvs current)', ['C120'], 'spectra exchanged'),
 (G, 'plotReconstruction', 'target := (linspace 0 1 200).map fun t => (t, targetRadius t)', 'target := (linspace 0 1 200).map fun t => (t, drumRadius Λplot aHat t)', ['C120'], 'fitted radius drawn twice'),
 (G, 'plotReconstruction', 'targetSpectrum := numbered targetEvs', 'targetSpectrum := numbered current', ['C120'], 'fitted spectrum drawn twice'),
 (G, 'plotReconstruction', 'spectrum := numbered current', 'spectrum := numbered targetEvs', ['C120'], 'target spectrum drawn twice'),
 (G, 'plotReconstruction', 'drumContour D (drumshapeMap (drumRadius Λplot aHat))', 'drumContour D (drumshapeMap targetRadius)', ['C120'], 'drawn on the target'),
 (G, 'plotReconstruction', 'getEvs D chol eigh Λmap aHat', 'getEvs D chol eigh Λplot aHat', ['C120'], 'fitting space replaced by the plotting space'),
 (G, 'plotReconstruction', 'loss := loss', 'loss := none', ['C120'], 'losses not drawn'),
 ('Model.Figures', 'gridValues', 'n2 i j', 'n2 j i', ['C102'], 'transposed grid'),
 ('Model.Figures', 'plot', 'if xs.length = ys.length then', 'if xs.length ≤ ys.length then', ['C102'], 'lengths compared with ≤'),
 ('Model.Figures', 'FV.neg', 'fin a => fin (-a)', 'fin a => fin a', ['C102'], 'negation forgotten'),
 ('Model.Figures', 'FV.sub', 'FV.add a b.neg', 'FV.add a.neg b', ['C102'], 'difference reversed'),
 ('Model.Figures', 'FV.abs', 'fin a => fin |a|', 'fin a => fin a', ['C102'], 'absolute value forgotten'),
 ('Model.Figures', 'first', '| x :: _ => .ok x', '| x :: l => .ok (l.getLastD x)', ['C102'], 'last instead of first'),
 ('Model.Figures', 'item', '| none => .error .keyError', '| none => .ok []', ['C102'], 'missing key read as empty'),
 ('Model.Multiplot', 'distinct', 'vals.toFinset.sort (· ≤ ·)', 'vals.toFinset.sort (· ≥ ·)', ['C114'], 'decreasing order'),
 ('Model.Multiplot', 'absFV', 'absDiff a (.fin 0)', 'absDiff a (.fin 1)', ['C114'], 'distance to one'),
 ('Model.Multiplot', 'numbers', 'some (.fin x) => some (e.1, x)', 'some (.fin x) => some (e.1, -x)', ['C114'], 'negated numbers'),
 ('Model.Multiplot', 'forceMultiplot', 'quantities.flatMap', '(quantities.drop 1).flatMap', ['C114'], 'first quantity left out'),
 ('Model.Panels', 'colour', 'normalise vmin vmax v', 'normalise vmax vmin v', ['C113'], 'limits exchanged'),
 ('Model.Panels', 'iterStyle', '100, none, .iotaRange', '100, none, .pressure', ['C113'], 'ITER coloured by pressure'),
 ('Model.Panels', 'solovevStyle', '1, none', '100, none', ['C113'], 'other number of skipped points'),
 ('Model.Panels', 'allP', 'pValue st p', 'fun _ => pValue st p 0', ['C113'], 'pressure at the axis'),
 ('Model.RunFile', 'Val.number', '.int n => .fin n', '.int n => .nan', ['C108'], 'integers not read'),
 ('Model.RunSetup', 'realLits', '10 ^ e', '10 ^ (e + 1)', ['C106'], 'literals scaled'),
 ('Model.RunSetup', 'configNum', '| none => .error "KeyError"', '| none => .ok 0', ['C106'], 'missing key read as zero'),
 ('Model.RunSetup', 'configNat', 'if 0 ≤ n then', 'if 0 < n then', ['C106'], 'zero rejected'),
 ('Model.RunSetup', 'stellBuild', 'ellipseOf c "n_fp"', 'ellipseOf c "n_turns"', ['C106'], 'other key'),
 ('Model.RunSetup', 'iterBuild', 'tokamakOf c', 'solovevMapOf c', ['C106'], 'other geometry'),
 ('Model.SinglePlot', 'trace', 'getD []', 'getD [.nan]', ['C115'], 'missing trace has one entry'),
 ('Model.SinglePlot', 'finite', '.fin x :: rest => (finite rest).map (x :: ·)', '.fin x :: rest => (finite rest).map (fun l => l ++ [x])', ['C115'], 'reversed'),
 ('Model.SinglePlot', 'toInt', '⌊x⌋ else ⌈x⌉', '⌊x⌋ else ⌊x⌋', ['C115'], 'floor for negative numbers'),
 ('Model.ToroidScript', 'runs', 'calls.foldl', 'calls.reverse.foldl', ['C111'], 'calls in the opposite order'),
 ('Model.ScriptCalls', 'initNames', '"F", ', '', ['C96'], 'attribute forgotten'),
 ('Model.ScriptCalls', 'crossNames', '"P2x2_to_1", ', '', ['C96'], 'attribute forgotten'),
 ('Model.Panels', 'truncateColormap', 'else (Mrx.linspace minval maxval 256)', 'else (Mrx.linspace minval 1 256)', ['C113'], 'colour map not truncated'),
 ('Model.Panels', 'truncateColormap', '.map cmapIndex).reverse else', '.map cmapIndex) else', ['C113'], 'never reversed'),
 ('Model.Panels', 'cmapIota', '0.85 false', '0.9 false', ['C113'], 'truncated as the other'),
 ('Model.Panels', 'cmapIota', '0.85 false', '0.85 true', ['C113'], 'reversed'),
 ('Model.Panels', 'cmapP', '0.0 0.9', '0.1 0.9', ['C113'], 'dark colours cut off'),
]
