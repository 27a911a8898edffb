#!/usr/bin/env python3
"""Generates lean/Verif/Model/RuleTexts.lean: /repo/assets/rules/{default,azik}/rule.toml after TOML parsing, with all texts as they are."""
import tomllib,os
def s(x): return 'c%"'+x.replace('\\','\\\\').replace('"','\\"')+'"'
def rows(l,n,ind): return (',\n'+' '*ind).join(', '.join(l[i:i+n]) for i in range(0,len(l),n))
o=['import Verif.Model.RuleText','',"/-! # The texts of the shipped rules (generated by `tools/genruletext.py`, do not edit) -/",'','namespace Cskk.Assets','','open RuleText','']
for rule in ['default','azik']:
    d=tomllib.load(open('/repo/assets/rules/%s/rule.toml'%rule,'rb'))
    conv=['(%s, %s, %s)'%(s(k),s(a),s(b)) for k,(a,b) in d['conversion'].items()]
    o+=['/-- The lines of `[conversion]` of /repo/assets/rules/%s/rule.toml. -/'%rule,'def %sConversionText : List (Str × Str × Str) :='%rule,'  ['+rows(conv,4,3)+']','']
    sects=[]
    for sec,tabs in d.items():
        if sec in ('conversion','metadata','command'): continue  # unknown tables are ignored
        ts=[]
        for tn,es in tabs.items():
            es=['(%s, [%s])'%(s(k),', '.join(s(i) for i in v)) for k,v in es.items()]
            ts.append('(%s,\n      [%s])'%(s(tn),rows(es,1,7)))
        sects.append('(%s,\n    [%s])'%(s(sec),rows(ts,1,5)))
    o+=['/-- The other tables of /repo/assets/rules/%s/rule.toml, without `[metadata]` and `[command]`, which are ignored. -/'%rule,'def %sSections : List (Str × List (Str × List (Str × List Str))) :='%rule,'  ['+rows(sects,1,3)+']','']
    o+=['/-- /repo/assets/rules/%s/rule.toml. -/'%rule,'def %sText : Toml := ⟨some %sConversionText, %sSections⟩'%(rule,rule,rule),'']
o+=['end Cskk.Assets']
open(os.path.dirname(os.path.abspath(__file__))+'/../lean/Verif/Model/RuleTexts.lean','w').write('\n'.join(o)+'\n')
