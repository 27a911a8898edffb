#!/usr/bin/env python3
"""Generates lean/Verif/Model/DefaultRule.lean from /repo/assets/rules/{default,azik}/rule.toml.
Key names are resolved with the xkbcommon-keysyms.h values below (src/keyevent.rs:155-173, 298-370)."""
import tomllib,os,re
NAMES={'space':0x20,'exclam':0x21,'quotedbl':0x22,'numbersign':0x23,'dollar':0x24,'percent':0x25,'ampersand':0x26,
'apostrophe':0x27,'parenleft':0x28,'parenright':0x29,'asterisk':0x2a,'plus':0x2b,'comma':0x2c,'minus':0x2d,'period':0x2e,
'slash':0x2f,'colon':0x3a,'semicolon':0x3b,'less':0x3c,'equal':0x3d,'greater':0x3e,'question':0x3f,'at':0x40,
'bracketleft':0x5b,'backslash':0x5c,'bracketright':0x5d,'asciicircum':0x5e,'underscore':0x5f,'grave':0x60,
'braceleft':0x7b,'bar':0x7c,'braceright':0x7d,'asciitilde':0x7e,'BackSpace':0xff08,'Tab':0xff09,'Return':0xff0d,
'Escape':0xff1b,'Delete':0xffff,'Control_L':0xffe3,'Left':0xff51,'Right':0xff53,'Down':0xff54,'Shift_L':0xffe1,'ISO_Left_Tab':0xfe20,'Up':0xff52,'ch':0xfea0,'Ch':0xfea1,'CH':0xfea2,'mu':0xb5,'AE':0xc6,
'ae':0xe6,'OE':0x13bc,'oe':0x13bd,'ht':0x9e2,'ff':0x9e3,'cr':0x9e4,'lf':0x9e5,'nl':0x9e8,'vt':0x9e9,'IO':0x100000ee}
for c in 'abcdefghijklmnopqrstuvwxyzABCDEFGHIJKLMNOPQRSTUVWXYZ0123456789': NAMES[c]=ord(c)
def keysyms(s):
    out=[]
    for w in s.split(' '):
        w=w.strip(); k=NAMES.get(w,0)
        if k==0: out+=[NAMES[c] for c in w if c in NAMES]
        else: out.append(k)
    return out
def keyevent(s):
    s=s.strip(); m=0
    if s[0]=='(' and s[-1]==')':
        k=None
        for w in s.strip('()').split(' '):
            if w=='shift': m|=1
            elif w=='control': m|=4
            else: k=NAMES[w]
        return k,m
    if len(s.encode())>2 and s[:2] in('C-','M-','A-','G-'):
        m={'C-':4,'M-':1<<28,'A-':8,'G-':1<<7}[s[:2]]; s=s[2:]
    return NAMES[s],m
def lc(x): return x[0].lower()+x[1:]
def instr(s):
    s={'FlushPreviousCarryOver':'ClearUnconvertedInputs','FlushConvertedKana':'ClearKanaConvertedInputs','DeleteDirect':'Delete',
       'DeletePrecomposition':'Delete','ConfirmAsHiragana':'ConfirmAs(Hiragana)','ConfirmAsKatakana':'ConfirmAs(Katakana)',
       'ConfirmAsJISX0201':'ConfirmAs(HankakuKatakana)'}.get(s,s)
    m=re.fullmatch(r'(\w+)\((\w+)\)',s)
    if m:
        a,b=m.groups(); a={'OutputNNIfAny':'ForceKanaConvert'}.get(a,a)
        return '.%s .%s'%(lc(a),lc(b))
    return '.'+lc(s)
def s(x): return 'c%"'+x.replace('\\','\\\\').replace('"','\\"')+'"'
def rows(l,n): return ',\n   '.join(', '.join(l[i:i+n]) for i in range(0,len(l),n))
MODES=[('direct','direct'),('preComposition','pre_composition'),('preCompositionOkurigana','pre_compisition_okurigana'),
 ('compositionSelection','composition_selection'),('abbreviation','abbreviation'),('completion','completion')]
IMS=[('hiragana','hiragana'),('katakana','katakana'),('hankakuKatakana','hankakukatakana'),('zenkaku','zenkaku'),('ascii','ascii')]
o=['import Verif.Model.Context','import Verif.Model.Assets','',
"/-! # The rules shipped with the library (generated by `tools/genrules.py`, do not edit) -/",'','namespace Cskk.Assets','']
o+=['/-- The names of libxkbcommon (xkbcommon-keysyms.h) which occur in the rules and in the tests. -/',
'def keysymNames : List (Str × Keysym) :=','  ['+rows(['(%s, %d)'%(s(k),v) for k,v in NAMES.items()],6)+']','']
o+=['/-- `keysym_from_name` on these names, `keysym_to_utf8` on ASCII and the control keys. -/','def xkb : Xkb where',
"  fromName n := ((keysymNames.find? (·.1 = n)).map (·.2)).getD KEY_NoSymbol",
"  toChar k :=",
"    if 0x20 ≤ k ∧ k ≤ 0x7e then some (Char.ofNat k)",
"    else if k = 0xff08 ∨ k = 0xff09 ∨ k = 0xff0d ∨ k = 0xff1b then some (Char.ofNat (k - 0xff00))",
"    else none",'',
'/-- `keysym_get_name` on these names. -/',
'def keysymName (k : Keysym) : Str := ((keysymNames.find? (·.2 = k)).map (·.1)).getD []','']
for rule in ['default','azik']:
    d=tomllib.load(open('/repo/assets/rules/%s/rule.toml'%rule,'rb'))
    tbl=[]
    for k,(carry,conv) in d['conversion'].items():
        tbl.append('(%s, (%s, %s))'%(str(keysyms(k)),s(conv),str(keysyms(carry))))
    o+=['/-- `[conversion]` of /repo/assets/rules/%s/rule.toml. -/'%rule,'def %sRomaji : List (List Keysym × Conv) :='%rule,'  ['+rows(tbl,4)+']','']
    o+=['/-- The command tables of /repo/assets/rules/%s/rule.toml. -/'%rule,'def %sCommands : CommandRule'%rule]
    for lm,tm in MODES:
        for li,ti in IMS:
            es=d.get(tm,{}).get(ti,{})
            if not es: continue
            o.append('  | .%s, .%s =>'%(lm,li))
            o.append('    ['+',\n     '.join('(⟨%d, %d#32⟩, [%s])'%(keyevent(k)[0],keyevent(k)[1],', '.join(instr(i) for i in v)) for k,v in es.items())+']')
    o+=['  | _, _ => []','']
    o+=['/-- The loaded romaji table. -/','def %sKana : KanaBuilder := KanaBuilder.ofTable %sRomaji'%(rule,rule),'']
o+=['/-- The environment of the tests of the repository (/repo/tests/utils/mod.rs:87-96). -/','def env (p : Profile) : Env where',
'  prof := p','  xkb := xkb','  keysymName := keysymName','  kanaForm := ⟨katakana, jisx0201⟩','  asciiForm := AsciiFormChanger.fromLists hankaku zenkaku','']
o+=['end Cskk.Assets']
open(os.path.dirname(os.path.abspath(__file__))+'/../lean/Verif/Model/DefaultRule.lean','w').write('\n'.join(o)+'\n')
