G = 'Model.RunScripts'
MUTATIONS = [
 (G, 'runFiles', 'runFiles dir rest w\'', 'runFiles dir rest w', ['C123'], 'effects of a script forgotten'),
 (G, 'runFiles', '(if r.err = [] then [] else [.errors file r.err])', '(if r.code = 0 then [] else [.errors file r.err])', ['C123'], 'errors printed by return code'),
 (G, 'runFiles', '(if r.err = [] then [] else [.errors file r.err])', '[.errors file r.err]', ['C123'], 'empty errors printed'),
 (G, 'runFiles', '.output file r.out', '.output path r.out', ['C123'], 'path instead of name'),
 (G, 'runFiles', '| .error e => ([.running path], .error e)', "| .error _ => runFiles dir rest w", ['C123'], 'scripts that cannot be started are skipped'),
 (G, 'isPy', '".py".toList.isSuffixOf f', '".py".toList.isPrefixOf f', ['C123'], 'prefix'),
 (G, 'isPy', '".py".toList.isSuffixOf f', '"py".toList.isSuffixOf f', ['C123'], 'dot forgotten'),
 (G, 'runAllScripts', 'files.filter isPy', 'files', ['C123'], 'every file run'),
 (G, 'runAllScripts', 'files.filter isPy', '(files.filter isPy).reverse', ['C123'], 'other order'),
 (G, 'main', 'M "scripts/interactive/".toList w\'', 'M "scripts/interactive/".toList w', ['C123'], 'second directory from the first state'),
 (G, 'main', 'M "scripts/interactive/".toList', 'M "scripts/plotting/".toList', ['C123'], 'other directory'),
 (G, 'main', '(l ++ r.1, r.2)', '(r.1 ++ l, r.2)', ['C123'], 'outputs exchanged'),
 (G, 'main', '| (l, .error e) => (l, .error e)', '| (l, .error _) => let r := runAllScripts M "scripts/interactive/".toList w; (l ++ r.1, r.2)', ['C123'], 'second directory run after an exception'),
 (G, 'exitCode', '.error _ => 1', '.error _ => 0', ['C123'], 'exceptions ignored'),
]
