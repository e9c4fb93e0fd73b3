#!/usr/bin/env python3
"""Mechanical mutation of every definition of the model.

usage: sweep.py list [seed]            write /tmp/sweep/mutants.json
       sweep.py work <i> <n>           build every n-th mutant, starting with i; results in /tmp/sweep/out<i>.jsonl

For each definition some edits are drawn from a fixed set of operators (boundaries, constants, connectives, alerts, labels,
dropped updates, dropped list pieces, exchanged names).  A mutant is caught if a theorem no longer checks; failing examples
and `_fails` witnesses do not count and are replaced, in the scratch copy, so that the build goes on.
"""
import glob, json, os, random, re, signal, subprocess, sys, time

SRC = '/verif/lean'
TOP = '/tmp/sweep'
FILES = '''Basic Conn/Concurrent Conn/Config Conn/Dial Conn/Handshake Conn/Model Conn/Stack Crypto/Model Crypto/Exporter
Handshake/Flight Handshake/Layer Handshake/Model Machine/Client Machine/Common Machine/Server Machine/Link
Messages/Bodies Messages/Extensions Negotiation/Model Record/FrameReader Record/Model Syntax/Model Syntax/Tags
Timer/Model'''.split()
DECL = re.compile(r'^(?:@\[[^\]]*\]\s*)?(?:private |protected |noncomputable )*'
                  r'(theorem|lemma|example|def|instance|structure|inductive|abbrev|mutual|end|namespace|section|open)\b\s*(\S*)')
SWAPS = [('clientAp', 'serverAp'), ('clientHs', 'serverHs'), ('take', 'drop'), ('labelClientAp', 'labelServerAp'),
         ('labelClientHs', 'labelServerHs'), ('rekeyIn', 'rekeyOut'), ('fst', 'snd'), ('head?', 'getLast?'),
         ('epochHandshake', 'epochApplication'), ('min', 'max')]

def edits(body):
    """All edits of a definition's text, as (start, end, replacement, description)."""
    out = []
    k = body.find(':=')
    j = re.search(r'\n\s+\| ', body)
    start = min(x for x in (k if k >= 0 else 10**9, j.start() if j else 10**9))
    if start == 10**9: return []
    def add(m, new, what, g=0):
        if m.start(g) >= start: out.append((m.start(g), m.end(g), new, what))
    for a, b in [('<', '≤'), ('≤', '<'), ('>', '≥'), ('≥', '>'), ('∧', '∨'), ('∨', '∧'), ('&&', '||'), ('||', '&&'), ('≠', '='), ('==', '!=')]:
        for m in re.finditer(r' (%s) ' % re.escape(a), body): add(m, b, f'{a} becomes {b}', 1)
    for m in re.finditer(r'if [^:=]*? (=) ', body): add(m, '≠', '= becomes ≠', 1)
    for m in re.finditer(r'(?<![\w.#])(0x[0-9a-f]+|\d+)(?![\w])', body):
        n = int(m.group(1), 0)
        add(m, str(n + 1), f'{m.group(1)} becomes {n + 1}')
    for a, b in [('true', 'false'), ('false', 'true')]:
        for m in re.finditer(r'(?<![\w.])%s(?!\w)' % a, body): add(m, b, f'{a} becomes {b}')
    for m in re.finditer(r'Alert\.(\w+)', body):
        b = 'internalError' if m.group(1) != 'internalError' else 'decodeError'
        add(m, 'Alert.' + b, f'{m.group(1)} becomes {b}')
    for m in re.finditer(r'ascii "([^"]*)"', body): add(m, f'ascii "{m.group(1)}x"', f'text {m.group(1)!r} changed')
    for m in re.finditer(r"(?<![\w.)\]}])([a-z][\w.']*) \+\+ ", body): add(m, '', f'{m.group(1)} left out')
    for m in re.finditer(r" \+\+ ([a-z][\w.']*)(?![\w.'(])(?= *[)\n,}])", body): add(m, '', f'{m.group(1)} left out')
    for m in re.finditer(r"\{ ([\w.']+) with [\w.]+ := [^{},\n]* \}", body): add(m, m.group(1), 'update left out')
    for m in re.finditer(r", ([\w.]+) := [^{},\n()]*(?= \}|,)", body): add(m, '', f'update of {m.group(1)} left out')
    for m in re.finditer(r" - 1(?!\d)", body): add(m, '', '- 1 left out')
    for m in re.finditer(r" \+ (\w[\w.]*)(?=[\s),])", body): add(m, '', f'+ {m.group(1)} left out')
    for m in re.finditer(r"\.err \.(msg|wouldBlock|eof)", body):
        b = 'eof' if m.group(1) != 'eof' else 'msg'
        add(m, '.err .' + b, f'error {m.group(1)} becomes {b}')
    for m in re.finditer(r'if (?!let)([^\n]*?) then', body): add(m, f'if ¬ ({m.group(1)}) then', 'condition negated')
    for a, b in SWAPS:
        for c, d in ((a, b), (b, a)):
            for m in re.finditer(r'(?<!\w)%s(?!\w)' % re.escape(c), body): add(m, d, f'{c} becomes {d}')
    return out

def definitions():
    for f in FILES:
        p = f'{SRC}/Verif/{f}.lean'
        if not os.path.exists(p): continue
        s = open(p).read()
        for m in re.finditer(r'^(?:noncomputable )?def (\S+)', s, re.M):
            n = re.compile(r'^(/--|/-!|def |noncomputable |theorem |structure |inductive |instance |end |mutual|abbrev |namespace |@\[)', re.M).search(s, m.end())
            yield f'Verif/{f}.lean', m.group(1), m.start(), (n.start() if n else len(s)), s

def listing(seed):
    rnd = random.Random(seed)
    done = ' '.join(json.loads(l)['definition'] for l in open('/verif/seeded/LOG.jsonl'))
    first, later = [], []
    for f, name, a, b, s in definitions():
        es = edits(s[a:b])
        if not es: continue
        rnd.shuffle(es)
        known = re.search(r'(?<![\w.])' + re.escape(name) + r'(?!\w)', done)
        for i, (x, y, new, what) in enumerate(es[:1 + min(5, len(es) // 5)]):
            old = s[a + x:a + y]
            line = s[:a + x].count('\n') + 1
            m = {'file': f, 'definition': name, 'at': a + x, 'to': a + y, 'new': new, 'old': old, 'edit': f'{what} (line {line}: `{s[:a + x].split(chr(10))[-1].strip()[-40:]}⟦{old}⟧{s[a + y:].split(chr(10))[0][:40]}`)'}
            (later if known or i > 0 else first).append(m)
    rnd.shuffle(first); rnd.shuffle(later)
    os.makedirs(TOP, exist_ok=True)
    json.dump(first + later, open(TOP + '/mutants.json', 'w'), indent=0, ensure_ascii=False)
    print(len(first), len(later))

def sync(scr):
    subprocess.run(['cp', '-a', TOP + '/base/.', scr + '/'], check=True) if not os.path.exists('/usr/bin/rsync') else \
        subprocess.run(['rsync', '-a', '--delete', TOP + '/base/', scr + '/'], check=True)

def decl_at(lines, n):
    i = min(n, len(lines)) - 1
    while i >= 0 and not (m := DECL.match(lines[i])): i -= 1
    if i < 0: return None
    j = i + 1
    while j < len(lines) and not DECL.match(lines[j]) and not lines[j].startswith('/-'): j += 1
    return i, j, m.group(1), m.group(2)

def split_proof(text):
    depth = 0
    for k in range(len(text)):
        c = text[k]
        if c in '([{⟨': depth += 1
        elif c in ')]}⟩': depth -= 1
        elif depth == 0 and text.startswith(':= by', k): return k
    return None

def build(scr):
    """Builds; returns (ok, [(file, line)]) and stops early once a theorem has failed."""
    p = subprocess.Popen(['lake', 'build'], cwd=scr, stdout=subprocess.PIPE, stderr=subprocess.STDOUT, text=True, start_new_session=True)
    errs, real, t0 = [], False, time.time()
    for l in p.stdout:
        m = re.match(r'error: (Verif\S*\.lean):(\d+):', l)
        if m:
            errs.append((m.group(1), int(m.group(2))))
            d = decl_at(open(os.path.join(scr, m.group(1))).read().split('\n'), int(m.group(2)))
            if d and d[2] in ('theorem', 'lemma') and not d[3].endswith('_fails'): real = True
        if real and l.startswith('error: Lean exited'):
            os.killpg(p.pid, signal.SIGKILL); break
    p.wait()
    return p.returncode == 0, errs

def one(m, scr):
    sync(scr)
    p = os.path.join(scr, m['file'])
    s = open(p).read()
    if s[m['at']:m['to']] != m['old']: return 'stale', []
    open(p, 'w').write(s[:m['at']] + m['new'] + s[m['to']:])
    weak = []
    for _ in range(25):
        ok, errs = build(scr)
        if ok: return 'survived', weak
        if not errs: return 'no location', weak
        names, bad = [], {}
        for f, n in errs:
            lines = open(os.path.join(scr, f)).read().split('\n')
            d = decl_at(lines, n)
            if d is None: return 'lost', weak
            if d[2] in ('def', 'instance', 'structure', 'inductive', 'abbrev', 'mutual'):
                if f == m['file']: return 'invalid', weak
                return 'caught', weak + [f'{d[2]} {d[3]}']
            bad.setdefault(f, set()).add(d)
            if d[2] in ('theorem', 'lemma') and not d[3].endswith('_fails'): names.append(d[3])
        if names: return 'caught', weak + sorted(set(names))
        for f, ds in bad.items():
            fp = os.path.join(scr, f)
            lines = open(fp).read().split('\n')
            for i, j, kind, name in sorted(ds, reverse=True):
                weak.append(name if kind == 'theorem' else f'example at {f}:{i + 1}')
                if kind == 'example': lines[i:j] = ['example : True := trivial', '']
                else:
                    body = '\n'.join(lines[i:j]); k = split_proof(body)
                    if k is None: return 'caught', weak
                    lines[i:j] = (body[:k] + ':= by sorry\n').split('\n')
            open(fp, 'w').write('\n'.join(lines))
    return 'gave up', weak

def work(i, n):
    scr = f'{TOP}/w{i}'
    os.makedirs(scr, exist_ok=True)
    ms = json.load(open(TOP + '/mutants.json'))
    outp = f'{TOP}/out{i}.jsonl'
    done = sum(1 for _ in open(outp)) if os.path.exists(outp) else 0
    for m in ms[i::n][done:]:
        t = time.time()
        v, names = one(m, scr)
        with open(outp, 'a') as f:
            f.write(json.dumps({'verdict': v, 'definition': m['definition'], 'file': m['file'], 'edit': m['edit'], 'failed': names, 'secs': int(time.time() - t)}, ensure_ascii=False) + '\n')

if sys.argv[1] == 'list': listing(int(sys.argv[2]) if len(sys.argv) > 2 else 1)
else: work(int(sys.argv[2]), int(sys.argv[3]))
