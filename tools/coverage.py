#!/usr/bin/env python3
"""Prints, for every Go function of /repo (tests excluded), the Lean definitions whose comment cites its lines."""
import re, glob, os, sys
repo = sys.argv[1] if len(sys.argv) > 1 else '/repo'
lean = os.path.join(os.path.dirname(os.path.abspath(__file__)), '..', 'lean', 'Verif')
funcs = []
for f in sorted(glob.glob(repo + '/**/*.go', recursive=True)):
    if f.endswith('_test.go'):
        continue
    lines = open(f).read().split('\n')
    starts = [(i, re.match(r'func (\([^)]*\) )?(\w+)\(', l)) for i, l in enumerate(lines, 1)]
    starts = [(i, m) for i, m in starts if m]
    for i, m in starts:
        end = i
        while end <= len(lines) and not lines[end - 1].startswith('}') and not (end == i and lines[end - 1].rstrip().endswith('}')):
            end += 1
        funcs.append((os.path.relpath(f, repo), i, end, m.group(2), (m.group(1) or '').strip(' ()')))
cites = {}
for f in sorted(glob.glob(lean + '/Model/*.lean') + glob.glob(lean + '/Go/*.lean')):
    t = open(f).read()
    for m in re.finditer(r'/--(.*?)-/\s*(?:@\[[^\]]*\]\s*)?(?:noncomputable )?(?:def|structure|inductive|class|abbrev|instance)\s+(\S+)', t, re.S):
        for c in re.finditer(r'(\w+\.go):(.*?)(?=\w+\.go:|\.\s|$)', m.group(1), re.S):
            for r in re.finditer(r'\b(\d+)(?:-(\d+))?\b', c.group(2)):
                a = int(r.group(1)); b = int(r.group(2) or a)
                cites.setdefault(c.group(1), []).append((a, b, m.group(2)))
def covers(a, b, i, e):
    return max(a, i) <= min(b, e)
cur = None
missing = []
for f, i, e, n, r in funcs:
    ds = []
    for a, b, d in cites.get(os.path.basename(f), []):
        if covers(a, b, i, e) and d not in ds:
            ds.append(d)
    if not ds:
        missing.append((f, i, n)); continue
    if f != cur:
        print(f'\n**{f}**: ', end=''); cur = f
        first = True
    recv = r.split()[-1].lstrip('*') + '.' if r else ''
    print(('' if first else '; ') + f'`{recv}{n}` → ' + ', '.join(f'`{d}`' for d in ds[:6]) + (' …' if len(ds) > 6 else ''), end='')
    first = False
print('\n\n**Not cited:** ' + ', '.join(f'`{f}:{i} {n}`' for f, i, n in missing))
