#!/usr/bin/env python3
"""Prints the axioms of every theorem named in MANIFEST.json, as a markdown section. Run after `lake build`."""
import json, os, re, subprocess, tempfile
root = os.path.dirname(os.path.dirname(os.path.abspath(__file__)))
man = json.load(open(os.path.join(root, 'MANIFEST.json')))
names = sorted({t for c in man['claims'] for t in c['theorems']})
with tempfile.NamedTemporaryFile('w', suffix='.lean', delete=False) as f:
    f.write('import Verif\n' + ''.join(f'#print axioms {n}\n' for n in names))
out = subprocess.run(['lake', 'env', 'lean', f.name], cwd=os.path.join(root, 'lean'), capture_output=True, text=True).stdout
os.unlink(f.name)
groups = {}
for n, ax in re.findall(r"'([^']*)' (?:depends on axioms: \[([^\]]*)\]|does not depend on any axioms)", out):
    key = ', '.join(sorted(a.strip() for a in ax.split(','))) if ax else 'none'
    groups.setdefault(key, []).append(n.replace('Verif.', ''))
for key in sorted(groups, key=lambda k: (k.count(','), k)):
    print(f'* {key}: ' + ', '.join(groups[key]) + '.')
seen = {n for g in groups.values() for n in g}
missing = [n for n in names if n.replace('Verif.', '') not in seen]
if missing:
    print('MISSING', missing)
