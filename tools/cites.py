#!/usr/bin/env python3
"""Check the citations file.rs:a-b of the Lean comments against /repo: show for each range the first and last source line,
flagging ranges that start or end at a blank line or a lone brace, or end beyond the file, and ranges that
contain none of the identifiers in backquotes of the same line of the comment."""
import re,sys,os,glob
src={}
for r,_,fs in os.walk('/repo'):
    if '/.git' in r: continue
    for f in fs:
        if f.endswith('.rs'): src.setdefault(f,[]).append(os.path.join(r,f))
root='/verif/lean/Verif/'
pat=re.compile(r'((?:[a-z_]+/)*[a-z_]+\.rs):(\d+(?:-\d+)?(?:(?:, (?:and )?| and )\d+(?:-\d+)?)*)')
full='-v' in sys.argv
n=bad=0
for p in sorted(glob.glob(root+'**/*.lean',recursive=True)):
    t=open(p).read()
    for m in pat.finditer(t):
        line=t.count('\n',0,m.start())+1
        base=os.path.basename(m.group(1))
        c=[x for x in src.get(base,[]) if x.endswith('/'+m.group(1))] or src.get(base,[])
        if base=='mod.rs' and len(c)>1: c=[x for x in c if 'dictionary/mod' in x]
        if len(c)>1: c=[x for x in c if '/src/' in x]
        L=open(c[0]).read().split('\n')
        # text of the enclosing comment sentence
        a=t.rfind('/-',0,m.start()); b=t.find('-/',m.end())
        com=t[a:b]
        ids=set(re.findall(r'`([A-Za-z_:]+)`',com))
        for r in re.findall(r'\d+(?:-\d+)?',m.group(2)):
            x=[int(k) for k in r.split('-')]; s,e=x[0],x[-1]
            n+=1
            if e>len(L): print('BEYOND',p[len(root):],line,m.group(0)); bad+=1; continue
            seg='\n'.join(L[s-1:e])
            ok=(not ids) or any(i.split('::')[-1] in seg for i in ids)
            edge=L[s-1].strip() in('','}','});') or L[e-1].strip()==''
            if full or not ok or edge:
                bad+=1
                print(f"{'EDGE' if edge else ''}{'' if ok else 'NOID'} {p[len(root):]}:{line} {base}:{r} | {L[s-1].strip()[:60]} | {L[e-1].strip()[:40]} | {','.join(sorted(ids))[:60]}")
print(n,bad)
