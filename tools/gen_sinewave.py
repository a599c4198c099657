#!/usr/bin/env python3
"""Writes lean/Verif/Wavetable/SineData.lean from /repo/surge-wavetable/src/initial.rs."""
import re
s=open('/repo/surge-wavetable/src/initial.rs').read()
b=[int(x,16) for x in re.findall(r'0x([0-9A-Fa-f]{2})',s)]
assert len(b)==2060
o=['/-!','# The bytes of the built-in wavetable (C270)','','Generated by tools/gen_sinewave.py.','-/','namespace Verif.Wavetable.Sine','',
'/-- surge-wavetable/src/initial.rs 3-133 `BASIC_SINE_WAVE`. -/','def bytes : List Nat := [']
rows=[', '.join(str(x) for x in b[i:i+32]) for i in range(0,len(b),32)]
o.append(',\n'.join('  '+r for r in rows)+']'); o.append(''); o.append('end Verif.Wavetable.Sine')
open('/verif/lean/Verif/Wavetable/SineData.lean','w').write('\n'.join(o)+'\n')
