#!/usr/bin/env python3
"""Writes the axioms every theorem of MANIFEST.json depends on, grouped by axiom set,
into section 3.1 of DESIGN.md.  Run from /verif/lean after `lake build`."""
import json, re, subprocess, tempfile, os, collections
names = [t for c in json.load(open('/verif/MANIFEST.json'))['claims'] for t in c['theorems']]
names = list(dict.fromkeys(names))
with tempfile.NamedTemporaryFile('w', suffix='.lean', delete=False) as f:
    f.write('import Verif\n' + ''.join(f'#print axioms {n}\n' for n in names))
out = subprocess.run(['lake', 'env', 'lean', f.name], capture_output=True, text=True).stdout
os.unlink(f.name)
groups = collections.defaultdict(list)
for m in re.finditer(r"'([^']+)' (?:depends on axioms: \[([^\]]*)\]|does not depend on any axioms)", out):
    ax = ', '.join(sorted(a.strip() for a in (m.group(2) or '').split(',') if a.strip()))
    groups[ax].append(m.group(1).replace('Wayuu.', ''))
assert sum(map(len, groups.values())) == len(names), out
lines = ['| axioms | theorems |', '|---|---|']
for ax in sorted(groups):
    lines.append('| ' + (ax or 'none') + ' | ' + ', '.join('`%s`' % t for t in sorted(groups[ax])) + ' |')
d = open('/verif/DESIGN.md').read()
d = re.sub(r'(<!-- axioms begin -->\n).*(<!-- axioms end -->)',
           lambda m: m.group(1) + '\n'.join(lines) + '\n' + m.group(2), d, flags=re.S)
open('/verif/DESIGN.md', 'w').write(d)
