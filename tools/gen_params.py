#!/usr/bin/env python3
"""Generates lean/Verif/Param/Table.lean from the parameter enums of /repo (all enums marked #[synth_parameters])."""
import re, subprocess, math, struct
from fractions import Fraction
R='/repo/'
files=subprocess.run("grep -rln '#\\[synth_parameters\\]' --include=*.rs . | sort",shell=True,cwd=R,capture_output=True,text=True).stdout.split()
def f32(x): return struct.unpack('f',struct.pack('f',x))[0]
consts={'RINGMOD_MAX_UNISON':'16','N_VOCODER_BANDS as i32':'20','i32::MIN':str(-2**31),'i32::MAX':str(2**31-1)}
def lit(s):
    s=s.strip().rstrip(',').strip()
    m=re.match(r'PData::(Int|Float|Bool)\(\s*(.*?)\s*\)$',s)
    assert m, s
    k,v=m.group(1),m.group(2)
    v=consts.get(v,v)
    if k=='Bool': return f'.bool {v}'
    if k=='Int': return f'.int ({int(v)})'
    if v.startswith('vocoder_default_freq_'):
        txt=open(R+'surgefx-vocoder/src/constants.rs').read()
        arr=[float(x) for x in re.search(r'VSM201: \[.*?\] = \[(.*?)\]',txt,re.S).group(1).replace('\n','').split(',') if x.strip()]
        x=arr[0] if v.startswith('vocoder_default_freq_low') else arr[-1]
        q=f32(f32(math.log2(f32(x/440.0)))*12.0)
        fr=Fraction(q); return f'.float ({fr.numerator} / {fr.denominator})'
    fr=Fraction(1)
    for p in v.split('*'): fr*=Fraction(p.strip())
    return f'.float ({fr.numerator})' if fr.denominator==1 else f'.float ({fr.numerator} / {fr.denominator})'
def strip(s): return re.sub(r'//[^\n]*','',re.sub(r'/\*.*?\*/','',s,flags=re.S))
def method(txt,fn,enum):
    m=re.search(r'fn '+fn+r'\(&self\)[^{]*\{(.*?)\n    \}',txt,re.S)
    if not m: return None
    b=m.group(1)
    arms=re.findall(enum+r'::(\w+)\s*=>\s*((?:[^,()]|\([^()]*(?:\([^()]*\)[^()]*)*\))*),',b)
    if arms: return dict(arms)
    return b.strip()
out=[];fams=[]
for f in files:
    raw=open(R+f).read(); txt=strip(raw)
    m=re.search(r'#\[synth_parameters\]\s*pub enum (\w+) \{(.*?)\}',txt,re.S)
    en=m.group(1); names=[x.strip() for x in m.group(2).split(',') if x.strip()]
    ct,de,mi,ma,vt,mo,sn,ex=[method(txt,k,en) for k in('control_type','default_value','min_value','max_value','value_type','modulateable','snap','extend_range')]
    assert ex is None
    rows=[]
    for n in names:
        c=ct[n].split('::')[1] if ct else 'Nil'
        if de and de[n].strip()=='self.min_value()': d=lit(mi[n])
        elif de and de[n].strip()=='self.max_value()': d=lit(ma[n])
        else: d=lit(de[n]) if de else '.float (1 / 2)'
        lo=lit(mi[n]) if mi else '.float (0)'
        hi=lit(ma[n]) if ma else '.float (1)'
        v=vt[n].split('::')[1] if vt else 'VtFloat'
        if mo is None: q='false'
        elif isinstance(mo,dict): q=mo[n].strip()
        elif mo.startswith('!matches!'):
            q='false' if n in re.findall(en+r'::(\w+)',mo) else 'true'
        else: assert mo=='true',mo; q='true'
        if sn is None: s='true'
        else:
            mm=re.match(r'\*self != '+en+r'::(\w+)$',sn); assert mm; s='false' if mm.group(1)==n else 'true'
        rows.append(f'  ⟨"{en}", "{n}", .{c[0].lower()+c[1:] if not c.startswith("FM") else c[0].lower()+c[1:]}, {d}, {lo}, {hi}, .{v[0].lower()+v[1:]}, {q}, {s}⟩')
    out.append(f'/-- {f[2:]}: the enum `{en}` and its trait implementations; traits without methods use the defaults of surge-param. -/\ndef {en[0].lower()+en[1:]} : List Entry := [\n'+',\n'.join(rows)+']\n')
    fams.append(en[0].lower()+en[1:])
txt=strip(open(R+'surge-param/src/control_type.rs').read())
cts=[x.strip() for x in re.search(r'enhanced_enum!\[\s*ControlType \{(.*?)\}',txt,re.S).group(1).split(',') if x.strip()]
cn=lambda c:c[0].lower()+c[1:]
h='''/-!
# The parameters of the synthesizer

Generated by tools/gen_params.py from the 29 parameter enums of the repository.  A `float` literal is the decimal number
in the source; the program uses its `f32` rounding (`Lit.toPData`).  Simplification: `12.0 * log2(..)` in the two vocoder
frequency defaults was evaluated by the generator.
-/
import Verif.Param.Model
namespace Verif.Param

'''
h='import Verif.Param.Model\n'+h.replace('import Verif.Param.Model\n','')
open('/verif/lean/Verif/Param/Table.lean','w').write(h+'\n'.join(out)+'\n/-- Every parameter. -/\ndef allParams : List Entry :=\n  '+' ++\n  '.join(fams)+'\n\nend Verif.Param\n')
open('/verif/lean/Verif/Param/CType.lean','w').write('''namespace Verif.Param

/-- surge-param/src/control_type.rs 18-102 `ControlType` (generated by tools/gen_params.py). -/
inductive CType where
'''+'\n'.join('  | '+' | '.join(cn(c) for c in cts[i:i+8]) for i in range(0,len(cts),8))+'''
  deriving DecidableEq, Repr

end Verif.Param
''')
print(len(files),sum(len(o.split('⟨'))-1 for o in out),len(cts))
