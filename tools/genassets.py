#!/usr/bin/env python3
"""Generates lean/Verif/Model/Assets.lean from the TOML tables shipped in /repo/assets/rule."""
import tomllib,os
def s(x): return 'c%"'+x.replace('\\','\\\\').replace('"','\\"')+'"'
A='/repo/assets/rule/'
a=tomllib.load(open(A+'ascii_form.toml','rb')); k=tomllib.load(open(A+'kana_form.toml','rb'))
def rows(l,n=8):
    return ',\n   '.join(', '.join(l[i:i+n]) for i in range(0,len(l),n))
o=['import Verif.Model.Basic','',"/-! # Tables shipped with the library (generated by `tools/genassets.py`, do not edit) -/",'','namespace Cskk.Assets','']
o+=['/-- `hankaku` of /repo/assets/rule/ascii_form.toml:2-13. -/','def hankaku : List Str :=\n  ['+rows([s(x) for x in a['hankaku']])+']','']
o+=['/-- `zenkaku` of /repo/assets/rule/ascii_form.toml:14-25. -/','def zenkaku : List Str :=\n  ['+rows([s(x) for x in a['zenkaku']])+']','']
o+=['/-- `[katakana]` of /repo/assets/rule/kana_form.toml:1-95. -/','def katakana : List (Str × Str) :=\n  ['+rows(['(%s, %s)'%(s(x),s(y)) for x,y in k['katakana'].items()],5)+']','']
o+=['/-- `[jisx0201]` of /repo/assets/rule/kana_form.toml:97-193. -/','def jisx0201 : List (Str × Str) :=\n  ['+rows(['(%s, %s)'%(s(x),s(y)) for x,y in k['jisx0201'].items()],5)+']','']
o+=['end Cskk.Assets']
open(os.path.dirname(os.path.abspath(__file__))+'/../lean/Verif/Model/Assets.lean','w').write('\n'.join(o)+'\n')
