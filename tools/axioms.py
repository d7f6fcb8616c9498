#!/usr/bin/env python3
"""Writes AXIOMS.md: the axioms of every theorem in MANIFEST.json, as printed by Lean."""
import json, subprocess, os, re, tempfile
root = os.path.dirname(os.path.dirname(os.path.abspath(__file__)))
m = json.load(open(root + '/MANIFEST.json'))
names = [t for c in m['claims'] for t in c['theorems']]
with tempfile.NamedTemporaryFile('w', suffix='.lean', delete=False) as o:
    o.write('import Verif\n' + ''.join('#print axioms %s\n' % t for t in names))
r = subprocess.run(['lake', 'env', 'lean', o.name], cwd=root + '/lean', capture_output=True, text=True).stdout
ax = {}
for g in re.finditer(r"'(\S+)' (?:depends on axioms: \[([^\]]*)\]|does not depend on any axioms)", r):
    ax[g.group(1)] = ', '.join(x.strip() for x in g.group(2).split(',')) if g.group(2) else 'none'
with open(root + '/AXIOMS.md', 'w') as f:
    f.write('# Axioms of the property theorems\n\n| theorem | axioms |\n|---|---|\n')
    for n in names: f.write('| `%s` | %s |\n' % (n, ax[n]))
