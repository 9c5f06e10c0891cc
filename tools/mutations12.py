# (module, definition, old, new, [claims broken], description)
SC, LC = 'Model.ScriptCalls', 'Model.Lifecycle'
MUTATIONS = [
 ('Model.Cavity', 'collect', '| .error e :: _ => .error e', '| .error _ :: xs => collect xs', ['C94'], 'errors swallowed (rerun)'),
 (SC, 'evPoisson', '.call "assemble_M0", .call "assemble_dd0"', '.call "assemble_dd0", .call "assemble_M0"', ['C96'], 'stiffness before mass'),
 (SC, 'evMixedPoisson', '.call "assemble_M2", .call "assemble_M3", ', '.call "assemble_M3", ', ['C96'], 'M2 not assembled'),
 (SC, 'evToroidCavity', '.call "assemble_d0",', '', ['C96'], 'gradient not assembled'),
 (SC, 'evSinglePlot', '.call "evaluate_1d", ', '', ['C96'], 'tables not evaluated before a projection'),
 (SC, 'evSetup', ', .call "assemble_leray_projection"', '', ['C96'], 'Leray projection not assembled'),
 (SC, 'evSetup', '.call "build_crossproduct_projections", ', '', ['C96'], 'cross products not built'),
 (SC, 'evMidpoint', '.cross "P1x1_to_2"', '.cross "P1x2_to_2"', ['C96'], 'misspelt cross product'),
 (SC, 'evPressure', '.get "P03"', '.get "P3"  ', ['C96'], 'another existing name: not an error (equivalent for this claim)'),
 (SC, 'evHopf', '.call "assemble_grad_0", ', '', ['C96'], 'the first removed method repaired: the next one raises'),
 (SC, 'SeqObj.has', 'o.crossBuilt && crossNames', '!o.crossBuilt && crossNames', ['C96'], 'cross products there before they are built'),
 (SC, 'storedNames', '("P12", a.P12.isSome)', '("P_12", a.P12.isSome)', ['C96'], 'attribute stored under another name'),
 (SC, 'callOf', '| "assemble_M0" => some .assembleM0', '| "assemble_M0" => some .assembleM1', ['C96'], 'method bound to the wrong body'),
 (SC, 'Ev.run', '| .project n => (o, !(o.has n && o.attrs.tables))', '| .project n => (o, !(o.has n))', ['C96'], 'projection works without tables'),
 (SC, 'runEvents', "| (o', true) => (o', some e)", "| (o', true) => runEvents rest o'", ['C96'], 'errors ignored'),
 (LC, 'assembleAll', '.assembleP12, .assembleP03]', '.assembleP12]', ['C80', 'C96'], 'assemble_all forgets P03'),
 (LC, 'assembleAll', '.assembleDd1, .assembleDd2,', '.assembleDd2, .assembleDd1,', [], 'order that does not matter'),
]
