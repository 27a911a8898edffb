#!/usr/bin/env python3
"""Writes AXIOMS.md: the axioms every theorem of MANIFEST.json depends on, as printed by Lean."""
import json,subprocess,re
m=json.load(open('/verif/MANIFEST.json'))
names=sorted({t for c in m['claims'] for t in c['theorems']})
open('/tmp/ax.lean','w').write('import Verif\n'+''.join(f'#print axioms {n}\n' for n in names))
out=subprocess.run(['lake','env','lean','/tmp/ax.lean'],cwd='/verif/lean',capture_output=True,text=True).stdout
out=re.sub(r'\n\s+',' ',out)
rows=[]
for l in out.strip().split('\n'):
    a=re.match(r"'(.*)' depends on axioms: \[(.*)\]",l)
    b=re.match(r"'(.*)' does not depend on any axioms",l)
    rows.append((a.group(1),a.group(2)) if a else (b.group(1),'none'))
assert {r[0] for r in rows}==set(names), set(names)-{r[0] for r in rows}
with open('/verif/AXIOMS.md','w') as f:
    f.write('# Axioms of the theorems in MANIFEST.json (output of `#print axioms`, made by tools/axioms.py)\n\n| theorem | axioms |\n|---|---|\n')
    for r in rows: f.write(f'| `{r[0]}` | {r[1]} |\n')
print(len(rows), sorted({x.strip() for r in rows for x in r[1].split(',')}))
