#!/usr/bin/env python3
"""quick.py IDS: the wrong programs of seeded/mutants.json, each built until the first theorem fails that a
property theorem rests on.  tools/mutate.py finds all theorems that fail, and takes much longer.  Appends to
seeded/LOG.jsonl; `stopped` marks its lines."""
import json, os, re, sys
sys.path.insert(0, os.path.dirname(os.path.abspath(__file__)))
sys.dont_write_bytecode = True
import automut as A
A.BASE, A.SCRATCH = os.environ.get('QBASE', '/tmp/qmutbase'), os.environ.get('QSCRATCH', '/tmp/qmut')


def main():
    if not os.environ.get('KEEP_BASE'):
        A.sh(f'rm -rf {A.BASE}; mkdir -p {A.BASE}; cp -a {A.VERIF}/lean {A.BASE}/')
    # what relates the two models of the scanner says nothing about either
    used = {x for x in A.used_by_property() if not x.endswith('_erase')}
    for m in json.load(open(f'{A.VERIF}/seeded/mutants.json')):
        if m['id'] not in sys.argv[1:]:
            continue
        src = open(f'{A.BASE}/lean/{m["file"]}').read()
        a = src.index(m['old'])
        r = A.run((m['file'], m['definition'], a, a + len(m['old']), m['old'], m['new']), used)
        t = r.get('theorem')
        prop = t is not None and re.match(r'C\d+_', t) is not None
        line = {'id': m['id'], 'definition': m['definition'], 'edit': m['edit'], 'claim_broken': m['claim'],
                'theorems_failed': [t] if prop else [], 'helper_lemmas_failed': [t] if t and not prop else [],
                'examples_failed': r.get('weak', []), 'theorems_tightened': m.get('tightened', []),
                'stopped': 'at the first failing theorem', 'caught': t is not None}
        if 'invalid' in r:
            line['error'] = r['invalid']
        print(json.dumps(line), flush=True)
        with open(f'{A.VERIF}/seeded/LOG.jsonl', 'a') as f:
            f.write(json.dumps(line) + '\n')


if __name__ == '__main__':
    main()
