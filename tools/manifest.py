#!/usr/bin/env python3
"""Regenerates MANIFEST.json from the property theorems (named Cnn_...) in lean/Verif/Props."""
import re, json, glob, os
root = os.path.dirname(os.path.dirname(os.path.abspath(__file__)))
notes = json.load(open(root + '/tools/notes.json'))
thms = {}
for f in sorted(glob.glob(root + '/lean/Verif/Props/*.lean')):
    ns = []
    for line in open(f):
        m = re.match(r'namespace (\S+)', line)
        if m: ns.append(m.group(1))
        m = re.match(r'end (\S+)', line)
        if m and ns and ns[-1] == m.group(1): ns.pop()
        m = re.match(r'(?:private )?theorem ((C\d+)_\S+)', line)
        if m: thms.setdefault(m.group(2), []).append('.'.join(ns + [m.group(1)]))
claims = []
for l in open(root + '/properties.jsonl'):
    i = json.loads(l)['id']
    t = thms.get(i, [])
    n = notes.get(i, {})
    st = n.get('status')
    if t:
        st = st or ('partial' if any('_partial' in x or '_counterexample' in x for x in t) else 'proved')
        claims.append({'property': i, 'status': st, 'theorems': t, 'note': n.get('note', '')})
    elif st == 'not_applicable':
        claims.append({'property': i, 'status': st, 'theorems': [], 'note': n['note']})
    else:
        print('no theorem yet:', i)
json.dump({'claims': claims}, open(root + '/MANIFEST.json', 'w'), indent=1)
with open(root + '/lean/Verif.lean', 'w') as o:
    for f in sorted(glob.glob(root + '/lean/Verif/Props/*.lean')):
        o.write('import Verif.Props.' + os.path.basename(f)[:-5] + '\n')
