#!/usr/bin/env python3
"""Regenerate MANIFEST.json and lean/Verif.lean from the Lean sources.

A property is `proved` when it has theorems and none is a `_partial` or `_fails` one,
`partial` otherwise. Notes come from notes.json next to this script.
"""
import glob, json, os, re
root = os.path.dirname(os.path.dirname(os.path.abspath(__file__)))
thms = {}
for f in sorted(glob.glob(root + '/lean/Verif/**/*.lean', recursive=True)):
    ns = []
    for line in open(f):
        m = re.match(r'namespace (\S+)', line)
        if m:
            ns.append(m.group(1)); continue
        m = re.match(r'end (\S+)', line)
        if m and ns and ns[-1] == m.group(1):
            ns.pop(); continue
        m = re.match(r"theorem (C(\d\d+)_[A-Za-z0-9_']+)", line)
        if m:
            thms.setdefault('C' + m.group(2), []).append('.'.join(ns + [m.group(1)]))
notes = json.load(open(root + '/tools/notes.json'))
claims = []
for line in open(root + '/properties.jsonl'):
    i = json.loads(line)['id']
    t = thms.get(i, [])
    bad = any(x.endswith('_partial') or x.endswith('_fails') for x in t)
    status = 'partial' if (bad or not t) else 'proved'
    note = notes.get(i, '' if t else 'not yet modelled')
    claims.append({'property': i, 'status': status, 'theorems': t, 'note': note})
json.dump({'claims': claims}, open(root + '/MANIFEST.json', 'w'), indent=1)
open(root + '/MANIFEST.json', 'a').write('\n')
mods = sorted(os.path.relpath(f, root + '/lean')[:-5].replace('/', '.')
              for f in glob.glob(root + '/lean/Verif/**/*.lean', recursive=True))
open(root + '/lean/Verif.lean', 'w').write(''.join(f'import {m}\n' for m in mods))
print({s: sum(c['status'] == s for c in claims) for s in ('proved', 'partial')},
      'empty', [c['property'] for c in claims if not c['theorems']])
