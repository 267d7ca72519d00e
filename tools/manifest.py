#!/usr/bin/env python3
"""Regenerates MANIFEST.json from the theorem names in lean/Verif/Props (Cnn_*) and the notes here."""
import re, json, glob, os
root = os.path.dirname(os.path.dirname(os.path.abspath(__file__)))
notes = json.load(open(os.path.join(root, 'tools', 'notes.json')))
props = [json.loads(l)['id'] for l in open(os.path.join(root, 'properties.jsonl')) if l.strip()]
th = {}
for f in sorted(glob.glob(os.path.join(root, 'lean/Verif/Props/*.lean'))):
    ns = []
    for line in open(f):
        m = re.match(r'namespace (\S+)', line)
        if m: ns.append(m.group(1)); continue
        m = re.match(r'end (\S+)', line)
        if m and ns and ns[-1] == m.group(1): ns.pop(); continue
        m = re.match(r'theorem (C(\d\d)_\S+)', line)
        if m:
            th.setdefault('C' + m.group(2), []).append('.'.join(ns + [m.group(1)]))
claims = []
for p in props:
    n = notes.get(p, {})
    ts = th.get(p, []) + n.get('extra', [])
    st = n.get('status', 'proved')
    if not ts:
        print('no theorem for', p); continue
    claims.append({'property': p, 'status': st, 'theorems': ts, 'note': n.get('note', '')})
json.dump({'claims': claims}, open(os.path.join(root, 'MANIFEST.json'), 'w'), indent=1)
print(len(claims), 'claims', sum(len(c['theorems']) for c in claims), 'theorems')
