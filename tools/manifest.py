#!/usr/bin/env python3
"""Regenerates MANIFEST.json from the theorem names in lean/Verif/Props (Cnn_ prefix)."""
import re,glob,json,os
here=os.path.dirname(os.path.dirname(os.path.abspath(__file__)))
props=[json.loads(l) for l in open(here+'/properties.jsonl')]
thm={}
for f in sorted(glob.glob(here+'/lean/Verif/Props/*.lean')):
    s=open(f).read()
    for m in re.finditer(r'(?m)^theorem (C\d\d+)_(\w+[\'?]?)',s):
        thm.setdefault(m.group(1),[]).append('Mrx.Props.'+m.group(1)+'_'+m.group(2))
notes=json.load(open(here+'/tools/notes.json'))
claims=[]
for p in props:
    i=p['id']
    if i in thm:
        st=notes.get(i,{}).get('status') or ('partial' if any(t.endswith('_partial') for t in thm[i]) else 'proved')
        claims.append(dict(property=i,status=st,theorems=thm[i],note=notes.get(i,{}).get('note','')))
    elif i in notes and notes[i].get('status')=='not_applicable':
        claims.append(dict(property=i,status='not_applicable',theorems=[],note=notes[i]['note']))
json.dump(dict(claims=claims),open(here+'/MANIFEST.json','w'),indent=1)
done={c['property'] for c in claims}
print(len(claims),'claims;',sum(map(len,thm.values())),'theorems; missing:',[p['id'] for p in props if p['id'] not in done])
