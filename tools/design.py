#!/usr/bin/env python3
"""Regenerates DESIGN.md from tools/design_head.md, the model's citations and #print axioms."""
import json, os, re, subprocess
here = os.path.dirname(os.path.abspath(__file__)); root = os.path.join(here, '..')
names = []
for c in json.load(open(root + '/MANIFEST.json'))['claims']:
    for t in c['theorems']:
        if t not in names: names.append(t)
open('/tmp/Ax.lean', 'w').write('import Verif\n' + '\n'.join(f'#print axioms {n}' for n in names) + '\n')
out = subprocess.run(['lake', 'env', 'lean', '/tmp/Ax.lean'], cwd=root + '/lean', capture_output=True, text=True).stdout
ax = {}
for x in re.finditer(r"'([^']+(?:'[^']*)?)' (does not depend on any axioms|depends on axioms: \[([^\]]*)\])", out.replace('\n', ' ')):
    ax[x.group(1)] = ', '.join(s.strip() for s in (x.group(3) or '').split(',') if s.strip())
full = 'propext, Classical.choice, Quot.sound'
missing = [n for n in names if n not in ax]
assert not missing, missing
groups = {}
for n in names: groups.setdefault(ax[n], []).append(n.replace('Verif.', '', 1))
assert all(set(g.split(', ')) <= set(full.split(', ')) | {''} for g in groups), groups.keys()
axl = ''
for g in sorted(groups, key=lambda g: -len(groups[g])):
    if g != full:
        axl += f'  * {("`" + g + "`") if g else "no axiom"} ({len(groups[g])}): ' + ', '.join(f'`{n}`' for n in groups[g]) + '\n'
cov = subprocess.run(['python3', here + '/coverage.py'], capture_output=True, text=True).stdout
body, nc = cov.split('**Not cited:** ')
body = '\n'.join('* ' + l for l in body.strip().split('\n') if l.strip())
s = open(here + '/design_head.md').read()
extra = open(here + '/not_modelled.md').read() if os.path.exists(here + '/not_modelled.md') else ''
s = (s.replace('AXCOUNT', str(len(groups[full]))).replace('AXLIST\n', axl).replace('COVERAGE', body)
      .replace('NOTCITED', '**Functions no definition cites:** ' + nc.strip() + '.\n\n' + extra))
s = s.replace('EXTRA_ROWS\n', '').replace('EXTRA_FINDINGS\n', '')
open(root + '/DESIGN.md', 'w').write(s)
