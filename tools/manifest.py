#!/usr/bin/env python3
"""Regenerate MANIFEST.json: collects every theorem named Cnn_* from lean/Verif and the status table below."""
import re, json, glob, os
root = os.path.join(os.path.dirname(__file__), '..')
status = {}   # property -> (status, note); default from theorem names
exec(open(os.path.join(root, 'tools', 'status.py')).read())
thms = {}
for f in sorted(glob.glob(os.path.join(root, 'lean/Verif/*.lean'))):
    ns = []
    for line in open(f):
        m = re.match(r'namespace (\S+)', line)
        if m: ns.append(m.group(1))
        m = re.match(r'end (\S+)', line)
        if m and ns and ns[-1] == m.group(1): ns.pop()
        m = re.match(r'theorem (C\d\d)_(\S+)', line)
        if m:
            thms.setdefault(m.group(1), []).append('.'.join(ns + [m.group(1) + '_' + m.group(2)]))
props = [json.loads(l)['id'] for l in open(os.path.join(root, 'properties.jsonl')) if l.strip()]
claims = []
for p in props:
    t = thms.get(p, []) + extra.get(p, [])
    st, note = status.get(p, ('proved', ''))
    if not t and st != 'not_applicable': continue
    claims.append({"property": p, "status": st, "theorems": t, "note": note})
json.dump({"claims": claims}, open(os.path.join(root, 'MANIFEST.json'), 'w'), indent=1)
print([(c['property'], c['status'], len(c['theorems'])) for c in claims])
