#!/usr/bin/env python3
"""Writes AXIOMS.md: the axioms each theorem named in MANIFEST.json depends on (lake build first)."""
import json, re, pathlib, subprocess, tempfile
root = pathlib.Path(__file__).resolve().parent.parent
ns = []
for c in json.load(open(root/'MANIFEST.json'))['claims']:
    for t in c['theorems']:
        if t not in ns: ns.append(t)
with tempfile.NamedTemporaryFile('w', suffix='.lean', delete=False) as f:
    f.write('import Verif\n' + ''.join(f'#print axioms {t}\n' for t in ns))
out = subprocess.run(['lake', 'env', 'lean', f.name], cwd=root/'lean', capture_output=True, text=True).stdout
rows = {}
for m in re.finditer(r"^'([^']*)' (?:depends on axioms: \[([^\]]*)\]|does not depend)", out, re.M):
    rows[m.group(1)] = re.sub(r'\s+', ' ', m.group(2) or 'none')
assert set(rows) == set(ns), set(ns) - set(rows)
allowed = {'propext', 'Classical.choice', 'Quot.sound', 'none'}
assert all(set(x.strip() for x in a.split(',')) <= allowed for a in rows.values())
groups = {}
for n in ns: groups.setdefault(rows[n], []).append(n.removeprefix('NdHist.'))
with open(root/'AXIOMS.md', 'w') as f:
    f.write('# Axioms of the theorems in MANIFEST.json (output of `#print axioms`)\n')
    for a in sorted(groups): f.write(f'\n## {a}\n\n' + ''.join(f'* {n}\n' for n in groups[a]))
print({a: len(g) for a, g in groups.items()})
