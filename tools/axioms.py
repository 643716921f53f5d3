#!/usr/bin/env python3
"""Write /verif/AXIOMS.md: the axioms every manifest theorem depends on (needs a finished `lake build`)."""
import json, re, subprocess, tempfile, os
m = json.load(open('/verif/MANIFEST.json'))
names = [(c['property'], t) for c in m['claims'] for t in c['theorems']]
f = tempfile.NamedTemporaryFile('w', suffix='.lean', delete=False)
f.write('import Verif\n' + ''.join(f'#print axioms {t}\n' for _, t in names)); f.close()
out = subprocess.run(['lake', 'env', 'lean', f.name], cwd='/verif/lean', capture_output=True, text=True).stdout
os.unlink(f.name)
out = re.sub(r'\n\s+', ' ', out)
ax = {}
for l in out.splitlines():
    r = re.match(r"'(\S+)' depends on axioms: \[(.*)\]", l)
    if r: ax[r[1]] = r[2]
    r = re.match(r"'(\S+)' does not depend on any axioms", l)
    if r: ax[r[1]] = '(none)'
with open('/verif/AXIOMS.md', 'w') as g:
    g.write('# Axioms of every claimed theorem (generated by tools/axioms.py from `#print axioms`)\n\n')
    for p, t in names: g.write(f'* {p} `{t}`: {ax.get(t, "NOT FOUND")}\n')
print(len(names), sum(t not in ax for _, t in names), sorted(set(a for v in ax.values() for a in v.split(', '))))
