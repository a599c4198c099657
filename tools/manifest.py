#!/usr/bin/env python3
"""Builds MANIFEST.json: theorems named Cnn_* found in lean/Verif, status/notes from tools/status.json."""
import json, re, glob
st = json.load(open('tools/status.json'))
ths = {}
for f in sorted(glob.glob('lean/Verif/**/*.lean', recursive=True)):
    ns = []
    for line in open(f):
        m = re.match(r'namespace (\S+)', line)
        if m: ns.append(m.group(1)); continue
        m = re.match(r'end (\S+)', line)
        if m and ns and ns[-1] == m.group(1): ns.pop(); continue
        m = re.match(r'theorem (C\d\d+)(_\S+)', line)
        if m:
            ths.setdefault(m.group(1), []).append('.'.join(ns + [m.group(1) + m.group(2)]))
claims = []
for l in open('properties.jsonl'):
    i = json.loads(l)['id']
    s = st.get(i)
    if not s and i not in ths: print('no claim yet', i); continue
    status, note = s if s else ('proved', '')
    if status == 'proved' and any('_partial' in t for t in ths.get(i, [])): print('check status', i)
    claims.append(dict(property=i, status=status, theorems=ths.get(i, []), note=note))
json.dump(dict(claims=claims), open('MANIFEST.json', 'w'), indent=1)
print(len(claims), 'claims', sum(len(c['theorems']) for c in claims), 'theorems')
