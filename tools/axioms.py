#!/usr/bin/env python3
"""Write AXIOMS.md: the axioms each theorem of MANIFEST.json depends on, as `#print axioms` reports them.

Needs a finished `lake build`. The Lean file asking for them is written outside the project.
"""
import json, os, re, subprocess, tempfile
root = os.path.dirname(os.path.dirname(os.path.abspath(__file__)))
claims = json.load(open(root + '/MANIFEST.json'))['claims']
names = [t for c in claims for t in c['theorems']]
with tempfile.NamedTemporaryFile('w', suffix='.lean', delete=False) as f:
    f.write('import Verif\n' + ''.join(f'#print axioms {t}\n' for t in names))
out = subprocess.run(['lake', 'env', 'lean', f.name], cwd=root + '/lean', capture_output=True, text=True).stdout
os.unlink(f.name)
found = {}
for m in re.finditer(r"'([^']+(?:'[^']+)*?)' (does not depend on any axioms|depends on axioms: \[([^\]]*)\])", out):
    found[m.group(1)] = sorted(a.strip() for a in (m.group(3) or '').split(',') if a.strip())
missing = [t for t in names if t not in found]
allowed = {'propext', 'Classical.choice', 'Quot.sound'}
bad = {t: a for t, a in found.items() if not set(a) <= allowed}
groups = {}
for t in names:
    groups.setdefault(tuple(found.get(t, ['?'])), []).append(t)
with open(root + '/AXIOMS.md', 'w') as f:
    f.write('# Axioms of each theorem\n\nGenerated by tools/axioms.py from `#print axioms`.\n')
    for a in sorted(groups, key=len):
        f.write(f"\n## {', '.join(a) if a else 'none'}\n\n")
        f.write(''.join(f'* {t}\n' for t in groups[a]))
print(len(names), 'theorems;', {', '.join(a) or 'none': len(t) for a, t in groups.items()}, 'missing', missing, 'bad', bad)
