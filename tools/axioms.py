#!/usr/bin/env python3
"""Write AXIOMS.md: the axioms each theorem of MANIFEST.json depends on.  Needs a built project."""
import collections, json, os, re, subprocess
here = os.path.dirname(os.path.abspath(__file__))
root = os.path.join(here, '..')
names = sorted({t for c in json.load(open(os.path.join(root, 'MANIFEST.json')))['claims'] for t in c['theorems']})
script = 'import Verif\n' + '\n'.join('#print axioms ' + n for n in names) + '\n'
path = '/tmp/axioms_query.lean'
open(path, 'w').write(script)
out = subprocess.run(['lake', 'env', 'lean', path], cwd=os.path.join(root, 'lean'), stdout=subprocess.PIPE, stderr=subprocess.STDOUT, text=True).stdout
by = collections.defaultdict(list)
for m in re.finditer(r"'([^']+)' (does not depend on any axioms|depends on axioms: \[([^\]]*)\])", out):
    by[', '.join(sorted(re.split(r',\s*', m.group(3)))) if m.group(3) else 'none'].append(m.group(1))
assert sum(map(len, by.values())) == len(names), out[-2000:]
with open(os.path.join(root, 'AXIOMS.md'), 'w') as f:
    f.write('# Axioms of the theorems in MANIFEST.json\n\nWritten by `tools/axioms.py` from `#print axioms`.\n')
    for k in sorted(by):
        f.write('\n## %s\n\n' % k)
        f.write('\n'.join('* `%s`' % n for n in by[k]) + '\n')
print({k: len(v) for k, v in by.items()})
