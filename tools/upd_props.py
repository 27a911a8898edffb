#!/usr/bin/env python3
"""Update or append properties: edits to properties.jsonl are kept in one place (id -> changed fields)."""
import json,sys
P='/verif/properties.jsonl'
def update(changes, new):
    rows=[json.loads(l) for l in open(P)]
    ids={r['id']:r for r in rows}
    for k,v in changes.items(): ids[k].update(v)
    for n in new:
        if n['id'] in ids: ids[n['id']].update(n)
        else: rows.append(n)
    with open(P,'w') as f:
        for r in rows: f.write(json.dumps(r,ensure_ascii=False)+'\n')
