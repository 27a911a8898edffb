#!/usr/bin/env python3
"""Replays the transition tests of /repo/tests on the Lean model (not a proof; a check that the model is the code).
Writes /tmp/conf/Conf.lean; run it with `cd /verif/lean && lake env lean /tmp/conf/Conf.lean`."""
import re,os,glob,sys
os.makedirs('/tmp/conf',exist_ok=True)
T='/repo/tests/'
files=[f for f in glob.glob(T+'*.rs')+glob.glob(T+'libskk_compatibility/*.rs')+glob.glob(T+'rule_specific/*.rs')]
def conv(path,enc):
    b=open('/repo/'+path,'rb').read()
    t=b.decode('euc-jp' if enc.lower()=='euc-jp' else 'utf-8',errors='replace')
    o='/tmp/conf/'+os.path.basename(path)+'.txt'; open(o,'w').write(t); return o
lc=lambda x:x[0].lower()+x[1:]
cases=[];skipped=[]
for f in sorted(files):
    src=open(f).read()
    for m in re.finditer(r'#\[test\]\s*(?:#\[[^\]]*\]\s*)*fn (\w+)\(\)[^{]*\{(.*?)\n\}',src,re.S):
        name=os.path.basename(f)[:-3]+'::'+m.group(1); body=m.group(2)
        if '#[ignore]' in m.group(0) or '#[ignore]' in src[max(0,m.start()-40):m.start()]: continue
        body=re.sub(r'//[^\n]*','',body).split('if false')[0]
        dicts={}; ops=[]; ctx=None
        for d in re.finditer(r'let (\w+) =\s*(?:Arc::new\(\s*)?CskkDictionary::new_(static|user)_dict\(\s*([^,]+?),\s*"([^"]*)",\s*(true|false),?\s*\)',body):
            v,kind,p,enc,compl=d.groups()
            if p.startswith('"'): path=conv(p.strip('"'),enc)
            else:
                q=re.search(r'let %s = "([^"]*)"'%p,body)
                path=conv(q.group(1),enc) if q else ''
            dicts[v]=(kind,path,compl)
        ok=True
        if 'default_test_context()' in body: ctx=('default',[('static',conv('tests/data/dictionaries/SKK-JISYO.S','euc-jp'),'true')])
        elif 'azik_test_context()' in body: ctx=('azik',[('static',conv('tests/data/dictionaries/SKK-JISYO.S','euc-jp'),'false')])
        else:
            mm=re.search(r'test_context_with_dictionaries\(vec!\[(.*?)\]\)',body,re.S)
            if mm:
                vs=re.findall(r'Arc::new\((\w+)\)|(\w+)\.clone\(\)',mm.group(1)); vs=[a or b for a,b in vs]
                if all(v in dicts for v in vs): ctx=('default',[dicts[v] for v in vs])
        if ctx is None or 'fs::' in body or 'File::' in body: skipped.append(name); continue
        for s in re.finditer(r'(transition_check)\(\s*&mut context,\s*CompositionMode::(\w+),\s*InputMode::(\w+),\s*"((?:[^"\\]|\\.)*)",\s*"((?:[^"\\]|\\.)*)",\s*"((?:[^"\\]|\\.)*)",\s*InputMode::(\w+),?\s*\)|(skk_context_reset_rs)\(|(transition_test)\(|skk_context_set_auto_start_henkan_keywords_rs\(&mut context, vec!\["([^"]*)"|set_(period|comma)_style',body):
            g=s.groups()
            if g[0]: ops.append('.check .%s .%s "%s" "%s" "%s" .%s'%(lc(g[1]),lc(g[2]),g[3],g[4],g[5],lc(g[6])))
            elif g[7]: ops.append('.reset')
            elif g[9] is not None: ops.append('.kw ["%s"]'%g[9])
            else: ok=False
        if not ok: skipped.append(name+' (detail)'); continue
        cases.append('("%s", "%s", [%s],\n   [%s])'%(name,ctx[0],', '.join('("%s","%s",%s)'%d for d in ctx[1]),',\n    '.join(ops)))
o='''import Verif
open Cskk
inductive T where | check (cm : CompositionMode) (im : InputMode) (keys pre out : String) (im' : InputMode) | reset | kw (l : List String)
def mk (p : String × String × Bool) : IO CskkDict := do
  let t ← if p.2.1 = "" then pure "" else IO.FS.readFile p.2.1
  let m := DictFile.loadLines ((t.splitOn "\\n").map fun l => some l.toList)
  return ⟨p.2.2, if p.1 = "user" then .user m false else .static m⟩
def e : Env := Assets.env ⟨true⟩
def run1 (name : String) (c : Ctx) (t : T) : IO Ctx := do
  match t with
  | .reset => return c.reset
  | .kw l => return { c with config := { c.config with keywords := l.map (·.toList) } }
  | .check cm im keys pre out im' =>
    let c := (c.setCompositionMode cm).setInputMode im
    match KeyEvent.deserializeSeq Assets.xkb keys.toList with
    | .ok (some ks) =>
      match c.processKeyEvents e ks with
      | .ok c =>
        let (c, o) := c.pollOutput
        let p := c.preedit e
        if (o.getD []) ≠ out.toList ∨ p ≠ pre.toList ∨ c.top.inputMode ≠ im' then
          IO.println s!"FAIL {name} '{keys}': output '{String.ofList (o.getD [])}' expected '{out}' preedit '{String.ofList p}' expected '{pre}'"
        return c
      | .error p => IO.println s!"PANIC {name} {keys} {repr p}"; return c
    | _ => IO.println s!"PARSE {name} {keys}"; return c
def cases : List (String × String × List (String × String × Bool) × List T) := [
'''+',\n'.join(cases)+''']
#eval show IO Unit from do
  let mut n := 0
  for (name, rule, ds, ts) in cases do
    let dicts ← ds.mapM mk
    let mut c := if rule = "azik" then Ctx.new Assets.azikCommands Assets.azikKana .hiragana .direct dicts
                 else Ctx.new Assets.defaultCommands Assets.defaultKana .hiragana .direct dicts
    for t in ts do
      n := n + 1
      c ← run1 name c t
  IO.println s!"{n} steps"
'''
open('/tmp/conf/Conf.lean','w').write(o)
print(len(cases),'tests;','skipped:',skipped)
