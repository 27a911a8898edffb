#!/usr/bin/env python3
"""Regenerates MANIFEST.json from tools/claims.tsv (property|status|theorems|note)."""
import json,os
d=os.path.dirname(os.path.abspath(__file__))
cl=[]
for l in open(d+'/claims.txt',encoding='utf8'):
    l=l.rstrip('\n')
    if not l or l.startswith('#'): continue
    p,s,t,n=l.split('|',3)
    cl.append(dict(property=p.strip(),status=s.strip(),theorems=t.split(),note=n.strip()))
json.dump({"claims":cl},open(d+'/../MANIFEST.json','w',encoding='utf8'),indent=1,ensure_ascii=False)
print(len(cl),'claims')
