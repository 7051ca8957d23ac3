#!/usr/bin/env python3
"""Regenerates MANIFEST.json from the theorems in lean/Verif/Props and tools/notes.json."""
import re, json, glob, os
root = os.path.dirname(os.path.dirname(os.path.abspath(__file__)))
thms = {}
for f in sorted(glob.glob(root + '/lean/Verif/Props/*.lean')):
    ns = []
    for line in open(f):
        m = re.match(r'namespace (\S+)', line)
        if m: ns.append(m.group(1))
        m = re.match(r'end (\S+)', line)
        if m and ns and ns[-1] == m.group(1): ns.pop()
        m = re.match(r'theorem ((C\d\d+)_\S+)', line)
        if m: thms.setdefault(m.group(2), []).append('.'.join(ns + [m.group(1)]))
notes = json.load(open(root + '/tools/notes.json'))
claims = []
for l in open(root + '/properties.jsonl'):
    p = json.loads(l)['id']
    n = notes.get(p, {})
    if p in thms:
        st = n.get('status') or ('partial' if any('_partial' in t or '_violated' in t for t in thms[p]) else 'proved')
        claims.append({'property': p, 'status': st, 'theorems': thms[p], 'note': n.get('note', '')})
    elif 'status' in n:
        claims.append({'property': p, 'status': n['status'], 'theorems': [], 'note': n.get('note', '')})
    else:
        print('no claim yet:', p)
json.dump({'claims': claims}, open(root + '/MANIFEST.json', 'w'), indent=1)
