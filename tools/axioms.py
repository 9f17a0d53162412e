#!/usr/bin/env python3
"""Rewrite Section 8 of DESIGN.md: the axioms each manifest theorem depends on."""
import json, re, subprocess, collections
m = json.load(open('/verif/MANIFEST.json'))
names = [t for c in m['claims'] for t in c['theorems']]
open('/tmp/axioms.lean', 'w').write('import Verif\n' + ''.join(f'#print axioms {n}\n' for n in names))
out = subprocess.run(['lake', 'env', 'lean', '/tmp/axioms.lean'], cwd='/verif/lean', capture_output=True, text=True).stdout
out = re.sub(r'\n\s+', ' ', out)
ax = {}
for l in out.splitlines():
    g = re.match(r"'(.*)' depends on axioms: \[(.*)\]", l)
    if g: ax[g[1]] = tuple(sorted(x.strip() for x in g[2].split(',')))
    g = re.match(r"'(.*)' does not depend on any axioms", l)
    if g: ax[g[1]] = ()
assert set(ax) == set(names), len(set(names) - set(ax))
groups = collections.defaultdict(list)
for n in names: groups[ax[n]].append(n.replace('DPPIR.Props.', ''))
s = ''
for g in sorted(groups, key=len):
    s += '* ' + (', '.join(f'`{x}`' for x in g) if g else 'none') + f' ({len(groups[g])} theorems): ' + ', '.join(groups[g]) + '\n'
p = '/verif/DESIGN.md'
d = open(p).read()
a, b = '<!-- axioms begin -->\n', '<!-- axioms end -->'
i, j = d.index(a) + len(a), d.index(b)
open(p, 'w').write(d[:i] + s + d[j:])
print({len(k): len(v) for k, v in groups.items()})
