#!/usr/bin/env python3
"""Writes lean/Verif/Tuning/BuiltinData.lean from the scale texts of /repo/surge-tuning/src/{ed,hd,sd}{2,3,4}.rs."""
import re
def esc(s): return '[' + ','.join("'" + c + "'" for c in s) + ']'
o=['/-!','# The scale texts shipped with surge-tuning (C268)','',
'Generated by tools/gen_scales.py: the constants of ed2.rs, ed3.rs, ed4.rs, hd2.rs, hd3.rs, hd4.rs, sd2.rs, sd3.rs and sd4.rs, as `indoc!` leaves them.',
'-/','namespace Verif.Tuning.Builtin','',
'/-- A shipped constant: its name, the interval it divides (`/1`), the two numbers in its name (the second is 0 for the equal divisions), its text, line by line (an empty last line if it ends with a line feed). -/',
'structure Entry where','  name : List Char','  interval : ℕ','  first : ℕ','  second : ℕ','  lines : List (List Char)','']
for f in ['ed2','ed3','ed4','hd2','hd3','hd4','sd2','sd3','sd4']:
    s=open('/repo/surge-tuning/src/'+f+'.rs').read()
    o.append(f'/-- surge-tuning/src/{f}.rs 3-{s.count(chr(10))}, all its constants. -/')
    o.append(f'def {f} : List Entry := [')
    es=[]
    for m in re.finditer(r'pub const\s+(\w+)\s*:\s*&str\s*=\s*indoc!\["\n(.*?)"\s*\];',s,re.S):
        n=m.group(1); ps=[int(x) for x in n.split('_')[1:]]+[0]
        ls = ', '.join(esc(l) for l in m.group(2).split(chr(10)))
        es.append(f'  ⟨{esc(n)}, {f[2]}, {ps[0]}, {ps[1]}, [{ls}]⟩')
    assert len(es)==s.count('pub const'), f
    o.append(',\n'.join(es)+']'); o.append('')
o.append('end Verif.Tuning.Builtin')
open('/verif/lean/Verif/Tuning/BuiltinData.lean','w').write('\n'.join(o).replace(' : ℕ',' : Nat')+'\n')
