#!/usr/bin/env python3
"""Mutation tests for the theorems.

usage: mutate.py mutants.json [name ...]

mutants.json is a list of {"name", "file", "old", "new", "def", "edit", "breaks", "tightened"}.
For each mutant a scratch copy of lean/ (outside /verif) is edited and rebuilt.  Declarations
that no longer check are replaced by sorry (in the scratch copy only) and the build continues; the property
theorems that failed are those that fail themselves or depend on a failed one. "also" lists further edits, to
lemmas that only restate the edited definition, so that the failures are those of statements that matter.
With --same the copy made by the last run is used again. One line per mutant is appended to seeded/LOG.jsonl unless --dry is given.
"""
import json, os, re, shutil, subprocess, sys

SRC = '/verif/lean'
BASE = '/tmp/scratch/base'
SCR = '/tmp/scratch/lean'
DECL = re.compile(r'^(?:@\[[^\]]*\]\s*)?(?:private |protected |noncomputable )*'
                  r'(theorem|lemma|example|def|instance|structure|inductive|abbrev|mutual|end|namespace|section|open)\b\s*(\S*)')

def copy(a, b):
    os.makedirs('/tmp/scratch', exist_ok=True)
    subprocess.run(['rsync', '-a', '--delete', a + '/', b + '/'], check=True) if shutil.which('rsync') else (
        shutil.rmtree(b, ignore_errors=True), shutil.copytree(a, b, symlinks=True))

def sync():
    copy(BASE, SCR)

def build(targets):
    p = subprocess.run(['lake', 'build'] + targets, cwd=SCR, capture_output=True, text=True)
    return p.returncode, p.stdout + p.stderr

def decl_at(lines, n):
    i = min(n, len(lines)) - 1
    while i >= 0 and not (m := DECL.match(lines[i])):
        i -= 1
    if i < 0: return None
    j = i + 1
    while j < len(lines) and not DECL.match(lines[j]) and not lines[j].startswith('/-'):
        j += 1
    return i, j, m.group(1), m.group(2)

def split_proof(text):
    m = re.search(r'\n  \| ', text)
    lim = m.start() if m else len(text)
    depth, k, cand = 0, 0, None
    while k < lim:
        c = text[k]
        if c in '([{⟨': depth += 1
        elif c in ')]}⟩': depth -= 1
        elif depth == 0 and text.startswith(':= by', k): return k
        elif depth == 0 and text.startswith(':=', k) and cand is None and not re.search(r'let [^\n]*$', text[:k]):
            cand = k
        k += 1
    return cand if cand is not None else (m.start() if m else None)

def run(m):
    sync()
    for e in [m] + m.get('also', []):
        p = os.path.join(SCR, e['file'])
        s = open(p).read()
        n = s.count(e['old'])
        if n != e.get('count', 1):
            return None, f"{e['old'][:60]!r} occurs {n} times in {e['file']}"
        open(p, 'w').write(s.replace(e['old'], e['new']))
    failed = []
    for _ in range(60):
        rc, out = build(m.get('targets', []))
        if rc == 0: break
        errs = re.findall(r'^error: (Verif\S*\.lean):(\d+):', out, re.M)
        if not errs: return failed, 'no location: ' + out[-800:]
        todo = {}
        for f, n in errs: todo.setdefault(f, set()).add(int(n))
        for f, ns in todo.items():
            fp = os.path.join(SCR, f)
            lines = open(fp).read().split('\n')
            ds = sorted({decl_at(lines, n) for n in ns} - {None}, reverse=True)
            for i, j, kind, name in ds:
                if kind in ('def', 'instance', 'structure', 'inductive', 'abbrev'):
                    return failed, f'{kind} {name} in {f} does not compile: ' + out[-600:]
                failed.append(name if kind != 'example' else f'example at {f}:{i+1}')
                body = '\n'.join(lines[i:j])
                if kind == 'example':
                    lines[i:j] = ['example : True := trivial', '']
                else:
                    k = split_proof(body)
                    new = body[:k] + ':= by sorry\n' if k is not None else None
                    if new is None: return failed, f'cannot stub {name}'
                    if new.rstrip() == body.rstrip():
                        # a mutual block: stub all of it
                        a = i
                        while a > 0 and lines[a] != 'mutual': a -= 1
                        b = i
                        while b < len(lines) and lines[b] != 'end': b += 1
                        if lines[a] != 'mutual' or b == len(lines): return failed, f'cannot stub {name}: ' + out[-500:]
                        blk, k = [], a + 1
                        while k < b:
                            if DECL.match(lines[k]):
                                e = decl_at(lines, k + 1)[1]
                                t = '\n'.join(lines[k:e])
                                blk += (t[:split_proof(t)] + ':= by sorry\n').split('\n')
                                failed.append(DECL.match(lines[k]).group(2))
                                k = e
                            else:
                                blk.append(lines[k]); k += 1
                        lines[a:b + 1] = blk
                        break
                    lines[i:j] = new.split('\n')
            open(fp, 'w').write('\n'.join(lines))
    else:
        return failed, 'gave up'
    names = []
    for d, _, fs in os.walk(os.path.join(SCR, 'Verif/Props')):
        for f in fs:
            ns = []
            for l in open(os.path.join(d, f)):
                if (x := re.match(r'namespace (\S+)', l)): ns.append(x.group(1))
                elif (x := re.match(r'end (\S+)', l)) and ns and ns[-1] == x.group(1): ns.pop()
                elif (x := re.match(r'theorem (C\d\d\S*)', l)): names.append('.'.join(ns + [x.group(1)]))
    ax = os.path.join(SCR, 'ax.lean')
    open(ax, 'w').write(''.join(f'import {t}\n' for t in (m.get('targets') or ['Verif'])) + ''.join(f'#print axioms {n}\n' for n in names))
    o = subprocess.run(['lake', 'env', 'lean', '-DmaxErrors=0', 'ax.lean'], cwd=SCR, capture_output=True, text=True).stdout
    bad = re.findall(r"'([^']+)' depends on axioms: \[[^\]]*sorryAx", o)
    return sorted(x.split('.')[-1] for x in bad), 'lemmas: ' + ', '.join(sorted(set(failed)))

def main():
    args = [a for a in sys.argv[1:] if not a.startswith('-')]
    dry = '--dry' in sys.argv
    ms = json.load(open(args[0]))
    if len(args) > 1: ms = [m for m in ms if m['name'] in args[1:]]
    if '--same' not in sys.argv: copy(SRC, BASE)
    for m in ms:
        bad, info = run(m)
        print(m['name'], '=>', bad, '|', info[:400], flush=True)
        if bad is None or dry: continue
        with open('/verif/seeded/LOG.jsonl', 'a') as f:
            f.write(json.dumps({'definition': m['def'], 'edit': m['edit'], 'breaks': m['breaks'],
                'failed': bad, 'tightened': m.get('tightened', []), 'info': info[:300]}, ensure_ascii=False) + '\n')

main()
