#!/usr/bin/env python3
"""Regenerates MANIFEST.json: theorems are grouped by their cNN_ prefix; statuses/notes below."""
import json,re,glob
ids=[json.loads(l)['id'] for l in open('/verif/properties.jsonl')]
th={}
for f in sorted(glob.glob('/verif/lean/Verif/Props/*.lean')):
    for m in re.finditer(r'^theorem (c(\d\d)_\w+)',open(f).read(),re.M):
        th.setdefault('C'+m.group(2),[]).append('Over.'+m.group(1))
notes=json.load(open('/verif/tools/notes.json'))
claims=[]
for i in ids:
    t=th.get(i,[])
    if not t: continue
    n=notes.get(i,{})
    st=n.get('status') or ('partial' if any(x.endswith('_partial') for x in t) else 'proved')
    claims.append({"property":i,"status":st,"theorems":t,"note":n.get('note','')})
json.dump({"claims":claims},open('/verif/MANIFEST.json','w'),indent=1)
print(len(claims),'claims',sum(len(c['theorems']) for c in claims),'theorems')
