#!/usr/bin/env python3
"""Mutation tests: edit the model in a scratch copy, rebuild, see which theorems fail.

usage: mutate.py MUTATIONS.py [first [last]]     (scratch copy: /tmp/mut, log: /verif/seeded/LOG.jsonl)
A mutation is (module, definition, old, new, [claims broken], description).
"""
import json, os, re, subprocess, sys, shutil, runpy
SRC, MUT, LOG = '/tmp/mutsrc', '/tmp/mut', '/verif/seeded/LOG.jsonl'
def sh(cmd, **k): return subprocess.run(cmd, shell=True, capture_output=True, text=True, **k)
def imports():
    g = {}
    for root, _, fs in os.walk(MUT + '/Verif'):
        for f in fs:
            if f.endswith('.lean'):
                p = os.path.join(root, f)
                m = os.path.relpath(p, MUT)[:-5].replace('/', '.')
                g[m] = re.findall(r'^import (Verif[\w.]*)', open(p).read(), re.M)
    return g
DECL = re.compile(r'^(?:@\[[^\]]*\]\s*)?(?:private |protected |noncomputable )*(theorem|lemma|def|example|instance|abbrev|structure)\s*([^\s:({\[]*)')
def enclosing(path, line):
    ls = open(path).read().split('\n')
    for i in range(min(line, len(ls)) - 1, -1, -1):
        m = DECL.match(ls[i])
        if m: return (m.group(1) + ' ' + m.group(2)).strip() if m.group(1) != 'theorem' else m.group(2)
    return '?'
def main():
    muts = runpy.run_path(sys.argv[1])['MUTATIONS']
    lo = int(sys.argv[2]) if len(sys.argv) > 2 else 0
    hi = int(sys.argv[3]) if len(sys.argv) > 3 else len(muts)
    man = {c['property']: c['theorems'] for c in json.load(open('/verif/MANIFEST.json'))['claims']}
    if not os.path.isdir(MUT): sh(f'cp -r /verif/lean {MUT}')
    for n in range(lo, hi):
        mod, dfn, old, new, claims, desc = muts[n]
        sh(f'rm -rf {MUT}/Verif; cp -rp {SRC}/Verif {SRC}/Verif.lean {MUT}/')
        path = f'{MUT}/Verif/{mod.replace(".", "/")}.lean'
        txt = open(path).read()
        # restrict to the definition
        m = re.search(r'^[^\n]*\b(?:def|instance|abbrev|structure)\s+' + re.escape(dfn) + r'(?![\w\'])', txt, re.M)
        if not m: print(n, 'SKIP: no such definition', dfn, flush=True); continue
        if old is None:
            start, cnt = 0, 1
            new_txt = new(txt)
        else:
            i = txt.find(old, m.start())
            end = re.search(r'\n\n', txt[m.start():])
            if i < 0 or i >= m.start() + (end.start() if end else len(txt)) + len(old):
                print(n, 'SKIP: pattern not in definition', dfn, old, flush=True); continue
            new_txt = txt[:i] + new + txt[i + len(old):]
        open(path, 'w').write(new_txt)
        r = sh('lake build 2>&1', cwd=MUT)
        out = r.stdout
        errs = sorted(set((f, int(l)) for f, l in re.findall(r'error: (?:\./)?(?:\./)*(Verif[\w/]*\.lean):(\d+):\d+', out)))
        failed, badmods = [], set()
        for f, l in errs:
            badmods.add(f[:-5].replace('/', '.'))
            nm = enclosing(f'{MUT}/{f}', l)
            e = f"{f[6:-5].replace('/', '.')}: {nm}"
            if e not in failed: failed.append(e)
        g = imports()
        blocked = set()
        ch = True
        while ch:
            ch = False
            for m_, ims in g.items():
                if m_ not in blocked and m_ not in badmods and any(i in badmods or i in blocked for i in ims):
                    blocked.add(m_); ch = True
        # claims: theorems of the claim that failed or are in blocked modules
        where = {}
        for root, _, fs in os.walk(MUT + '/Verif/Props'):
            for f in fs:
                t = open(os.path.join(root, f)).read()
                for x in re.findall(r'^theorem (\S+)', t, re.M): where[x] = 'Verif.Props.' + f[:-5]
        direct = set(e.split(': ')[1] for e in failed)
        # Lean continues after an error; theorems of the same file that use a failed one are not proved either
        dep = set()
        for f in sorted(set(f for f, _ in errs)):
            chunks = re.split(r'(?m)^(?=(?:private |protected )?theorem )', open(f'{MUT}/{f}').read())
            bad = set(e.split(': ')[1].split('.')[-1] for e in failed if e.startswith(f[6:-5].replace('/', '.') + ':'))
            for ck in chunks:
                mm = re.match(r'(?:private |protected )?theorem (\S+)', ck)
                if mm and mm.group(1).split('.')[-1] not in bad and any(re.search(r'(?<![\w\'])' + re.escape(b) + r'(?![\w\'])', ck) for b in bad if b and not b.startswith('example')):
                    dep.add(mm.group(1)); bad.add(mm.group(1).split('.')[-1])
        res = {}
        for c in claims:
            ths = [t.split('.')[-1] for t in man[c]]
            res[c] = {'failed': [t for t in ths if t in direct],
                      'uses_failed': [t for t in ths if t not in direct and t in dep],
                      'not_rebuilt': [t for t in ths if t not in direct and (where.get(t) in blocked)],
                      'still_prove': [t for t in ths if t not in direct and t not in dep and where.get(t) not in blocked]}
        killed = bool(errs) and all(v['failed'] or v['uses_failed'] or v['not_rebuilt'] for v in res.values())
        rec = {'definition': f'{mod}: {dfn}', 'edit': desc + (f' [{old.strip()} -> {new.strip()}]' if old else ''),
               'claim_broken': claims, 'theorems_failed': failed, 'blocked_modules': sorted(blocked),
               'claims': res, 'detected': killed, 'theorems_tightened': []}
        open('/tmp/mutlog.jsonl', 'a').write(json.dumps({'n': n, **rec}, ensure_ascii=False) + '\n')
        open(LOG, 'a').write(json.dumps(rec, ensure_ascii=False) + '\n')
        print(n, 'KILLED' if killed else 'SURVIVED', dfn, claims, failed[:4], len(blocked), 'blocked', flush=True)
        if not errs: print('   no error; tail:', out[-300:], flush=True)
main()
