#!/usr/bin/env python3
"""Write seeded/LOG.jsonl from the mutants and the results of the runs (see seeded/README.md)."""
import json,os,sys
W='/tmp/mut'
def load(p): return [json.loads(l) for l in open(p)] if os.path.exists(p) else []
M=json.load(open('/verif/MANIFEST.json'))
claims_of={}
for c in M['claims']:
    for t in c['theorems']: claims_of.setdefault(t,set()).add(c['property'])
notes=json.load(open('/verif/seeded/notes.json'))
out=[];stats=[0,0,0]
for k in sys.argv[1:]:
    ms=json.load(open(f'{W}/m{k}.json'))
    res={d['id']:d for d in load(f'{W}/d{k}.jsonl')}
    re_={d['id']:d for d in load(f'{W}/e{k}.jsonl')}
    for m in ms:
        d=res.get(m['id'])
        if d is None: continue
        n=notes.get(m['id'],{})
        o=dict(id=m['id'],definition=f"Verif/Model/{m['file']}.lean: {m['definition']}",
               edit=dict(old=m['old'],new=m['new']),claim=m['claim'],
               failed=d['bad'],first_errors=d['errs'][:6],
               claims_hit=sorted(set().union(*[claims_of.get(b,set()) for b in d['bad']]) if d['bad'] else set()))
        if not o['claim'] and o['claims_hit']:
            o['claim']=' '.join(o['claims_hit'][:4])
        r=re_.get(m['id'])
        if r is not None:
            o['failed_after_tightening']=r['bad']; o['first_errors_after_tightening']=r['errs'][:6]
        o['tightened']=n.get('tightened',[])
        if 'note' in n: o['note']=n['note']
        caught=bool((r or d)['bad'])
        o['verdict']='caught' if caught else ('equivalent' if 'equivalent' in m['claim'] or n.get('equivalent') else 'survived')
        if not caught and (r or d)['errs'] and o['verdict']=='survived': o['verdict']='survived (only examples or unlisted lemmas fail)'
        out.append(o)
with open('/verif/seeded/LOG.jsonl','w') as f:
    for o in out: f.write(json.dumps(o,ensure_ascii=False)+'\n')
from collections import Counter
print(Counter(o['verdict'] for o in out))
