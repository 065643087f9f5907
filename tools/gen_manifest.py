#!/usr/bin/env python3
"""Writes MANIFEST.json and checks that every theorem named exists in the sources."""
import json, re, pathlib, sys
root = pathlib.Path(__file__).resolve().parent.parent
names = set()
for f in (root/'lean'/'Verif').rglob('*.lean'):
    names |= set(t.replace('_root_.NdHist.', '') for t in re.findall(r'^theorem ([\w.]+)', f.read_text(), re.M))
claims = []
seen = set()
for line in (root/'tools'/'claims.txt').read_text().split('\n'):
    if not line.strip() or line.startswith('#'): continue
    prop, status, ths, note = [x.strip() for x in line.split('|', 3)]
    ths = ths.split()
    for t in ths:
        if t not in names: sys.exit(f'{prop}: no theorem {t}')
    seen |= set(ths)
    claims.append(dict(property=prop, status=status, theorems=['NdHist.'+t for t in ths], note=note))
props = [json.loads(l)['id'] for l in (root/'properties.jsonl').read_text().splitlines()]
listed = [c['property'] for c in claims]
missing = [p for p in props if p not in listed]
if missing: print('not in manifest:', missing)
un = sorted(t for t in names if re.match(r'C\d\d+', t) and t not in seen)
if un: print('theorems not in manifest:', un)
(root/'MANIFEST.json').write_text(json.dumps({'claims': claims}, indent=1, ensure_ascii=False)+'\n')
