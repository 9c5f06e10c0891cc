#!/usr/bin/env python3
"""Random mutation tests: pick definitions of the model at random, edit them with generic operators, rebuild in a scratch copy until the
first theorem fails.

usage: automut.py SEED COUNT     (scratch copy: /tmp/mut, sources: /tmp/mutsrc, output: /tmp/auto.jsonl)
"""
import json, os, random, re, subprocess, sys, glob, signal, time
SRC, MUT, OUT = '/tmp/mutsrc', '/tmp/mut', '/tmp/auto.jsonl'
OPS = [
 (r' < ', ' ≤ '), (r' ≤ ', ' < '), (r' \+ 1\b', ''), (r' - 1\b', ''), (r' \+ ', ' - '), (r' - ', ' + '), (r' \* ', ' + '), (r' / ', ' * '),
 (r' ∧ ', ' ∨ '), (r' ∨ ', ' ∧ '), (r'\bmin\b', 'max'), (r'\bmax\b', 'min'), (r'(?<![\w.\']) ?\b0\b(?![\w.])', ' 1'), (r'\b1\b(?![\w.])', '2'), (r'\b2\b(?![\w.])', '3'),
 (r'ᵀ', ''), (r'\.1\b', '.2'), (r'\.2\b', '.1'), (r'\btrue\b', 'false'), (r'\bfalse\b', 'true'), (r'\bcos\b', 'sin'), (r'\bsin\b', 'cos'),
 (r' -(?=[\w(])', ' '), (r'% ', '/ '), (r'>', '≥'), (r' = (?=[\w(])', ' ≠ '), (r'\^ 2', '^ 3'), (r'E1', 'E2'), (r'E2', 'E1'), (r'M1', 'M2'), (r'M2', 'M1'),
 (r'getLambda1', 'getLambda2'), (r'getLambda2', 'getLambda1'), (r'\.take', '.drop'), (r'\.head', '.getLast'), (r'⁻¹', ''), (r'inner', 'outer'), (r'\bsome\b', 'none'),
 (r'\bi\b', 'j'), (r'\bj\b', 'i'), (r'\bx 0\b', 'x 1'), (r'\bx 1\b', 'x 0'), (r'\bx 2\b', 'x 1'), (r'Bn', 'Bguess'), (r'Bguess', 'Bn'),
]
def defs(path):
    txt = open(path).read()
    heads = [m.start() for m in re.finditer(r'^(?:@\[[^\]]*\]\s*)?(?:noncomputable |private )*def ', txt, re.M)]
    for s in heads:
        e = re.search(r'\n\n|\n/--|\nend |\n@\[', txt[s:])
        e = s + (e.start() if e else len(txt) - s)
        name = re.match(r'(?:@\[[^\]]*\]\s*)?(?:noncomputable |private )*def ([^\s:({\[]+)', txt[s:]).group(1)
        body = txt[s:e]
        k = body.find(':=')
        k2 = body.find('\n  | ')
        if k < 0 or (0 <= k2 < k): k = k2
        if k > 0: yield name, s + k + 2, e, txt
def enclosing(path, line):
    D = re.compile(r'^(?:@\[[^\]]*\]\s*)?(?:private |protected |noncomputable )*(theorem|lemma|def|example|instance|abbrev|structure)\s*([^\s:({\[]*)')
    ls = open(path).read().split('\n')
    for i in range(min(line, len(ls)) - 1, -1, -1):
        m = D.match(ls[i])
        if m: return m.group(1) + ' ' + m.group(2)
    return '?'
def main():
    rnd = random.Random(int(sys.argv[1])); count = int(sys.argv[2])
    only = sys.argv[3:] 
    done = set()
    if os.path.exists(OUT):
        for l in open(OUT):
            d = json.loads(l); done.add((d['module'], d['def'], d['edit']))
    cands = []
    for f in sorted(glob.glob(SRC + '/Verif/Model/*.lean')):
        mod = os.path.basename(f)[:-5]
        if only and mod not in only: continue
        for name, s, e, txt in defs(f):
            c = []
            for pat, rep in OPS:
                for m in re.finditer(pat, txt[s:e]):
                    ctx = txt[max(s, s + m.start() - 25):min(e, s + m.end() + 25)].replace('\n', ' ')
                    c.append((mod, name, s + m.start(), s + m.end(), rep, f'{m.group(0)!r} -> {rep!r} in … {ctx} …'))
            if c: cands.append(c)
    rnd.shuffle(cands)
    n = 0
    while n < count and cands:
        for c in list(cands):
            if n >= count: break
            if not c: cands.remove(c); continue
            mod, name, a, b, rep, edit = c.pop(rnd.randrange(len(c)))
            if (mod, name, edit) in done: continue
            subprocess.run(f'rm -rf {MUT}/Verif; cp -rp {SRC}/Verif {SRC}/Verif.lean {MUT}/', shell=True)
            p = f'{MUT}/Verif/Model/{mod}.lean'
            txt = open(p).read()
            open(p, 'w').write(txt[:a] + rep + txt[b:])
            t0 = time.time()
            pr = subprocess.Popen('exec lake build Verif', shell=True, cwd=MUT, stdout=subprocess.PIPE, stderr=subprocess.STDOUT, text=True, start_new_session=True)
            res = 'SURVIVED'
            for line in pr.stdout:
                m = re.match(r'error: (?:\./)*(Verif[\w/]*\.lean):(\d+):\d+', line)
                if m:
                    f, l = m.group(1), int(m.group(2))
                    res = ('invalid ' if '/Model/' in f else 'killed ') + f[6:-5] + ': ' + enclosing(f'{MUT}/{f}', l)
                    break
            try: os.killpg(pr.pid, signal.SIGKILL)
            except ProcessLookupError: pass
            pr.wait()
            if not res.startswith('invalid'): n += 1
            rec = dict(module=mod, **{'def': name}, edit=edit, result=res, sec=round(time.time() - t0))
            open(OUT, 'a').write(json.dumps(rec, ensure_ascii=False) + '\n')
            print(rec, flush=True)
main()
