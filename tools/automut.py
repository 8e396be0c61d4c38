#!/usr/bin/env python3
"""Small random edits of the model, to find lines that no theorem depends on.

Every edit replaces one token of one definition of lean/Verif/Model in a scratch copy.  The copy
is built until a theorem that is (or is used by) a property theorem fails; edits for which only
examples fail, or nothing, are survivors.  Edits that the model itself does not compile with are
skipped.  One line per edit is appended to seeded/AUTO.jsonl.

usage: automut.py SEED COUNT [FILE ...]
"""
import json, os, random, re, subprocess, sys, time, signal

VERIF, SCRATCH = '/verif', os.environ.get('SCRATCH', '/tmp/amut')
BASE = os.environ.get('BASE', '/tmp/amutbase')
LOG = f'{VERIF}/seeded/AUTO.jsonl'
RULES = [(r' < ', ' ≤ '), (r' ≤ ', ' < '), (r' > ', ' ≥ '), (r' ≥ ', ' > '), (r' = (?!>)', ' ≠ '), (r' ≠ ', ' = '),
         (r' \+ 1\b', ''), (r' - 1\b', ''), (r'\b0\b', '1'), (r'\b1\b', '2'), (r' && ', ' || '), (r' \|\| ', ' && '),
         (r' ∧ ', ' ∨ '), (r' ∨ ', ' ∧ '), (r'\btrue\b', 'false'), (r'\bfalse\b', 'true'), (r'lit "([^"]+)"', 'lit "x"'),
         (r'lit "([^"]+)"', 'lit ""'), (r'!([a-z(])', r'\1'), (r'\bif (?!let|h)([^\n]*?) then', r'if ¬ (\1) then'),
         (r'(?<=[\w)\]]) \+\+ ([\w.]+|\[[^\]]*\])', ''), (r'\breverse\b', 'id'), (r'\.drop 1\b', ''), (r'\bsome \w+(?= =>)', None)]
DECL = re.compile(r'^(?:private )?(theorem|example|def|instance|structure|inductive|abbrev)\b\s*([^\s:({\[]*)')


def sh(cmd, **kw):
    return subprocess.run(cmd, shell=True, text=True, capture_output=True, **kw)


def code_mask(src):
    """positions that are not in comments"""
    ok = [True] * len(src)
    for m in re.finditer(r'/-.*?-/|--[^\n]*', src, re.S):
        for i in range(m.start(), m.end()):
            ok[i] = False
    return ok


def candidates(files):
    out = []
    for f in files:
        src = open(f'{BASE}/lean/{f}').read()
        ok = code_mask(src)
        defs = [(m.start(), m.group(1), m.group(2)) for m in re.finditer(DECL.pattern, src, re.M)]
        for pat, rep in RULES:
            if rep is None:
                continue
            for m in re.finditer(pat, src):
                if not all(ok[m.start():m.end()]):
                    continue
                d = [x for x in defs if x[0] <= m.start()]
                if not d or d[-1][1] not in ('def',):
                    continue
                new = m.expand(rep)
                if new == m.group(0):
                    continue
                out.append((f, d[-1][2], m.start(), m.end(), m.group(0), new))
    return out


def decl_at(path, line):
    lines = open(path).read().split('\n')
    for i in range(min(line - 1, len(lines) - 1), -1, -1):
        m = DECL.match(lines[i])
        if m:
            return m.group(1), m.group(2)
    return None, None


def used_by_property():
    """helper name -> used by a property theorem (textual closure over identifiers)"""
    body = {}
    for root, _, fs in os.walk(f'{BASE}/lean/Verif'):
        for fn in fs:
            if not fn.endswith('.lean') or '/Model' in root:
                continue
            cur = None
            for l in open(os.path.join(root, fn)):
                m = DECL.match(l)
                if m:
                    cur = m.group(2).split('.')[-1] if m.group(1) != 'example' else None
                    if cur:
                        body.setdefault(cur, set())
                if cur:
                    body[cur].update(x for y in re.findall(r"[\w'.₀-₉]+", l) for x in y.split('.'))
    todo = [n for n in body if re.match(r'C\d+_', n)]
    seen = set(todo)
    while todo:
        n = todo.pop()
        for x in body[n]:
            if x in body and x not in seen:
                seen.add(x)
                todo.append(x)
    return seen


def run(c, used):
    f, d, a, b, old, new = c
    sh(f'rm -rf {SCRATCH}; mkdir -p {SCRATCH}; cp -a {BASE}/lean {SCRATCH}/lean')
    lean = f'{SCRATCH}/lean'
    src = open(f'{lean}/{f}').read()
    open(f'{lean}/{f}', 'w').write(src[:a] + new + src[b:])
    p = subprocess.Popen('exec nice -n 5 lake build', shell=True, text=True, cwd=lean, stdout=subprocess.PIPE,
                         stderr=subprocess.STDOUT, env=dict(os.environ, LEAN_NUM_THREADS='3'), preexec_fn=os.setsid)
    weak, strong, invalid = [], None, None
    for line in p.stdout:
        m = re.search(r'error: (Verif[^\s:]*\.lean):(\d+):\d+:', line)
        if not m:
            continue
        kind, name = decl_at(f'{lean}/{m.group(1)}', int(m.group(2)))
        if '/Model/' in m.group(1):
            invalid = f'{m.group(1)}:{m.group(2)}'
            break
        short = (name or '').split('.')[-1]
        if kind == 'theorem' and (short in used or re.match(r'C\d+_', short)):
            strong = short
            break
        weak.append(f'{m.group(1)}:{kind} {name}')
    try:
        os.killpg(p.pid, signal.SIGTERM)
    except ProcessLookupError:
        pass
    p.wait()
    if invalid:
        return {'invalid': invalid}
    return {'theorem': strong, 'weak': weak[:8]}


def main():
    seed, count = int(sys.argv[1]), int(sys.argv[2])
    if not os.environ.get('KEEP_BASE'):
        sh(f'rm -rf {BASE}; mkdir -p {BASE}; cp -a {VERIF}/lean {BASE}/')
    files = sys.argv[3:] or [f'Verif/Model/{x}' for x in sorted(os.listdir(f'{BASE}/lean/Verif/Model')) if x != 'Threads.lean']
    rnd = random.Random(seed)
    cs = candidates(files)
    print(len(cs), 'candidates', flush=True)
    rnd.shuffle(cs)
    # at most three edits per definition
    per, pick = {}, []
    for c in cs:
        if per.get(c[:2], 0) < int(os.environ.get('PER', '3')):
            per[c[:2]] = per.get(c[:2], 0) + 1
            pick.append(c)
    used = used_by_property()
    done = {(x['file'], x['definition'], x['at'], x['new']) for x in map(json.loads, open(LOG))} if os.path.exists(LOG) else set()
    n = 0
    for c in pick:
        if n >= count:
            break
        src = open(f'{BASE}/lean/{c[0]}').read()
        ls = src.rfind('\n', 0, c[2]) + 1
        le = src.find('\n', c[3])
        at = src[ls:c[2]].strip()[-60:] + '⟦' + c[4] + '⟧' + src[c[3]:le][:40]
        if (c[0], c[1], at, c[5]) in done:
            continue
        t = time.time()
        r = run(c, used)
        line = {'file': c[0], 'definition': c[1], 'at': at, 'new': c[5], **r, 'survived': 'invalid' not in r and not r['theorem'],
                'seconds': int(time.time() - t)}
        print(json.dumps(line, ensure_ascii=False), flush=True)
        with open(LOG, 'a') as g:
            g.write(json.dumps(line, ensure_ascii=False) + '\n')
        if 'invalid' not in r:
            n += 1


if __name__ == '__main__':
    main()
