#!/usr/bin/env python3
"""Generates lean/Verif/Model/TomlFiles.lean: the .toml files of /repo/assets, line by line, verbatim."""
import os
def s(x):
    assert '\r' not in x and '\t' not in x
    return 'c%"'+x.replace('\\','\\\\').replace('"','\\"')+'"'
o=['import Verif.Model.TomlText','','/-! # The lines of the `.toml` files of /repo/assets (generated by `tools/gentoml.py`, do not edit) -/','','namespace Cskk.Assets','',
'/-- Lines with a line feed between them. -/','def joinLines : List Str → Str','  | [] => []','  | [l] => l',"  | l :: ls => l ++ '\\n' :: joinLines ls",'']
for name,path in [('metadataFile','rules/metadata.toml'),('defaultFile','rules/default/rule.toml'),('azikFile','rules/azik/rule.toml'),
                  ('asciiFormFile','rule/ascii_form.toml'),('kanaFormFile','rule/kana_form.toml')]:
    b=open('/repo/assets/'+path,'rb').read()
    ls=b.decode('utf-8').split('\n')
    chunks=[ls[i:i+40] for i in range(0,len(ls),40)]
    for i,ch in enumerate(chunks):
        o+=['/-- Lines %d-%d of /repo/assets/%s. -/'%(40*i+1,40*i+len(ch),path),'def %s%d : List Str :='%(name,i),'  ['+',\n   '.join(s(l) for l in ch)+']','']
    o+=['/-- The lines of /repo/assets/%s. -/'%path,'def %sLines : List (List Str) :='%name,'  ['+', '.join('%s%d'%(name,i) for i in range(len(chunks)))+']','',
        '/-- The text of /repo/assets/%s. -/'%path,'def %s : Str := joinLines %sLines.flatten'%(name,name),'']
o+=['end Cskk.Assets']
open(os.path.dirname(os.path.abspath(__file__))+'/../lean/Verif/Model/TomlFiles.lean','w').write('\n'.join(o)+'\n')
