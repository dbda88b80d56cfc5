#!/bin/sh
# Regenerates AXIOMS.txt: the axioms every theorem named in MANIFEST.json depends on (needs a built tree).
cd /verif/lean || exit 1
python3 - <<'P'
import json
m=json.load(open('/verif/MANIFEST.json'))['claims']
with open('/tmp/ax.lean','w') as f:
    f.write('import Verif\n')
    for t in sorted({t for c in m for t in c['theorems']}): f.write(f'#print axioms {t}\n')
P
lake env lean /tmp/ax.lean > /tmp/ax.out 2>&1
python3 - <<'P'
import re
s=open('/tmp/ax.out').read()
s=re.sub(r'\n\s+',' ',s)
L=[l for l in s.split('\n') if l.startswith("'")]
open('/verif/AXIOMS.txt','w').write('\n'.join(sorted(L))+'\n')
print(len(L))
P
