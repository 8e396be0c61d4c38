#!/usr/bin/env python3
"""Run the seeded wrong programs of seeded/mutants.json against the theorems.

Every mutant is applied to a scratch copy of the Lean project.  Declarations that fail to
check are replaced by `sorry` (in the scratch copy only) until the copy builds, so that all
failing declarations are found, not only those of the first failing module.  At the end the
manifest theorems that depend on a failed proof are listed.  One line per mutant is appended
to seeded/LOG.jsonl.

usage: mutate.py [ID ...]      (default: all mutants without a line in the log)
"""
import json, os, re, subprocess, sys

VERIF = '/verif'
SCRATCH = os.environ.get('SCRATCH', '/tmp/mut')
BASE = os.environ.get('BASE', '/tmp/mutbase')       # a built copy of /verif/lean, taken once per run
START = re.compile(r'^(private theorem|theorem|example|def|private def|instance|structure|inductive|abbrev|'
                   r'section|end|namespace|open|variable|mutual|/--|/-!|@\[|set_option|import|attribute|macro|syntax|elab)')
DECL = re.compile(r'^(?:private )?(theorem|example|def|instance|structure|inductive|abbrev)\b\s*([^\s:({\[]*)')


def sh(cmd, **kw):
    return subprocess.run(cmd, shell=True, text=True, capture_output=True, **kw)


def blocks(lines):
    """[(start, end, kind, name)] of the top-level declarations"""
    starts = [i for i, l in enumerate(lines) if START.match(l)] + [len(lines)]
    out = []
    for a, b in zip(starts, starts[1:]):
        m = DECL.match(lines[a])
        if m:
            out.append((a, b, m.group(1), m.group(2)))
    return out


def sorry_out(text):
    depth, i, n, first = 0, 0, len(text), None
    while i < n:
        c = text[i]
        if c == '"':
            i += 1
            while i < n and text[i] != '"':
                i += 2 if text[i] == '\\' else 1
        elif c in '([{⟨':
            depth += 1
        elif c in ')]}⟩':
            depth -= 1
        elif depth == 0 and text.startswith(':= by\n', i):
            return text[:i] + ':= sorry\n\n'
        elif depth == 0 and text.startswith(':=', i) and first is None:
            first = text[:i] + ':= sorry\n\n'
        elif depth == 0 and first is None and text.startswith('\n  | ', i) and not text[:i].endswith('with'):
            return text[:i] + ' := sorry\n\n'
        i += 1
    return first


def run(m):
    sh(f'rm -rf {SCRATCH}; mkdir -p {SCRATCH}; cp -a {BASE}/lean {SCRATCH}/lean')
    lean = f'{SCRATCH}/lean'
    path = f'{lean}/{m["file"]}'
    src = open(path).read()
    if src.count(m['old']) != 1:
        return {'error': f'old text occurs {src.count(m["old"])} times'}
    open(path, 'w').write(src.replace(m['old'], m['new']))
    failed, examples, defs = [], [], []
    for rnd in range(30):
        r = sh('nice -n 5 lake build', cwd=lean, env=dict(os.environ, LEAN_NUM_THREADS='3'))
        out = r.stdout + r.stderr
        errs = {}
        for f, l in re.findall(r'error: (Verif[^\s:]*\.lean):(\d+):\d+:', out):
            errs.setdefault(f, set()).add(int(l))
        if not errs:
            if r.returncode != 0:
                return {'error': 'build fails without position: ' + out[-600:]}
            break
        for f, ls in errs.items():
            p = f'{lean}/{f}'
            lines = open(p).read().split('\n')
            bs = blocks(lines)
            hit = {}
            for l in ls:
                cand = [b for b in bs if b[0] <= l - 1 < b[1]]
                if not cand:
                    cand = [b for b in bs if b[0] <= l - 1][-1:]
                for b in cand:
                    hit[b[0]] = b
            for a in sorted(hit, reverse=True):
                a, b, kind, name = hit[a]
                text = '\n'.join(lines[a:b])
                new = 'example : True := trivial\n' if kind == 'example' else sorry_out(text)
                if new is None or kind not in ('theorem', 'example'):
                    return {'error': f'{f}:{a+1}: {kind} {name} fails', 'failed': failed}
                if kind == 'example':
                    prev = [x for x in bs if x[0] < a and x[2] in ('theorem', 'def')]
                    examples.append(f'example after {prev[-1][3] if prev else f}')
                elif name not in failed:
                    failed.append(name)
                elif ':= sorry' in text:
                    return {'error': f'{f}: {name} fails without its proof', 'failed': failed}
                lines[a:b] = new.split('\n')
            open(p, 'w').write('\n'.join(lines))
    else:
        return {'error': 'too many rounds', 'failed': failed}
    man = json.load(open(f'{BASE}/MANIFEST.json'))
    names = [(c['property'], t) for c in man['claims'] for t in c['theorems']]
    chk = 'import Verif\n' + ''.join(f'#print axioms {t}\n' for _, t in names)
    open(f'{lean}/Chk.lean', 'w').write(chk)
    out = sh('lake env lean Chk.lean', cwd=lean).stdout
    os.remove(f'{lean}/Chk.lean')
    bad = []
    for msg in re.split(r"(?m)^(?=')", out):
        mm = re.match(r"'([^']+)' depends on axioms", msg)
        if mm and 'sorryAx' in msg:
            bad.append(mm.group(1))
    lost = [t for _, t in names if t in bad]
    return {'failed': failed, 'examples': examples, 'lost': lost, 'rounds': rnd + 1}


def main():
    muts = json.load(open(f'{VERIF}/seeded/mutants.json'))
    log = f'{VERIF}/seeded/LOG.jsonl'
    done = set()
    if os.path.exists(log):
        done = {json.loads(l)['id'] for l in open(log) if l.strip()}
    ids = sys.argv[1:]
    if not os.environ.get('KEEP_BASE'):
        sh(f'rm -rf {BASE}; mkdir -p {BASE}; cp -a {VERIF}/lean {VERIF}/MANIFEST.json {BASE}/')
    for m in muts:
        if (ids and m['id'] not in ids) or (not ids and m['id'] in done):
            continue
        r = run(m)
        short = lambda n: n.split('.')[-1]
        props = [x for x in r.get('failed', []) if re.match(r'C\d+_', short(x))]
        helpers = [x for x in r.get('failed', []) if not re.match(r'C\d+_', short(x))]
        line = {'id': m['id'], 'definition': m['definition'], 'edit': m['edit'], 'claim_broken': m['claim'],
                'theorems_failed': props, 'theorems_that_lost_their_proof': [short(x) for x in r.get('lost', [])],
                'helper_lemmas_failed': helpers[:12], 'examples_failed': r.get('examples', []),
                'theorems_tightened': m.get('tightened', [])}
        if 'error' in r:
            line['error'] = r['error']
        want = m['claim'].split()[0].strip(':')
        line['caught'] = any(want in x for x in line['theorems_that_lost_their_proof'] + props)
        print(json.dumps(line)[:600], flush=True)
        with open(log, 'a') as f:
            f.write(json.dumps(line) + '\n')


main()
