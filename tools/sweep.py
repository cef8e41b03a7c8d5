#!/usr/bin/env python3
"""Systematic mutants of the definitions of the model that were not yet edited by hand.

usage: sweep.py generate OUT.json        one or two mutants for every definition that seeded/LOG.jsonl does not name
       sweep.py run IN.json OUT.jsonl [--log] [--part K N]

A mutant is killed when some declaration does not check any more; the declarations that fail first are reported (those
that depend on them are not built).  Survivors have to be looked at by hand: either the edit does not change what the
program does, or a theorem is too weak.
"""
import glob, json, os, random, re, subprocess, sys

ROOT = os.path.join(os.path.dirname(os.path.abspath(__file__)), '..')
SRC = os.environ.get('MUTSRC', '/tmp/mutsrc')
DST = os.environ.get('MUTDIR', '/tmp/mutsweep')
START = re.compile(r'^(?:private |protected |noncomputable )*def (\S+)', re.M)
DECL = re.compile(r'^(?:@\[[^\]]*\]\s*)?(?:private |protected |noncomputable )*(theorem|lemma|example|def|instance|structure|inductive|abbrev)\b\s*(\S+)?')

SWAPS = [(' < ', ' ≤ '), (' ≤ ', ' < '), (' > ', ' ≥ '), (' ≥ ', ' > '), (' && ', ' || '), (' || ', ' && '), (' ∧ ', ' ∨ '),
         (' ∨ ', ' ∧ '), (' == ', ' != '), (' != ', ' == '), (' ≠ ', ' = '), (' + ', ' - '), (' - ', ' + '), (' * ', ' + '),
         ('.any ', '.all '), ('.all ', '.any '), ('true', 'false'), ('false', 'true'), (' + 1', ''), (' - 1', ''), ('.head?', '.getLast?'),
         ('.getLast?', '.head?'), ('min ', 'max '), ('max ', 'min '), ('.reverse', ''), ('filter fun', 'filter fun _ => true || fun'),
         ('.first', '.second'), ('.s0', '.s1'), ('.s1', '.s0'), ('.start', '.finish'), ('.min', '.max'), ('.max', '.min')]


def body_of(text, m):
    end = len(text)
    for k in re.finditer(r'\n(?=\S)', text[m.end():]):
        end = m.end() + k.start()
        break
    return text[m.start():end]


def candidates(body):
    head = body.find(':=')
    eqn = re.search(r'\n\s*\|', body)
    if eqn and (head < 0 or eqn.start() < head):
        head = eqn.start()
    if head < 0:
        return
    pre, post = body[:head], body[head:]
    for a, b in SWAPS:
        for k in [x.start() for x in re.finditer(re.escape(a), post)][:2]:
            yield f'{a.strip()} -> {b.strip()}', pre + post[:k] + b + post[k + len(a):]
    for x in re.finditer(r'if ((?:(?!then|:).)+?) then', post):
        yield 'negated condition', pre + post[:x.start()] + f'if ¬ ({x.group(1)}) then' + post[x.end():]
    for x in re.finditer(r'\n +throwUnless [^\n]*', post):
        yield 'check dropped', pre + post[:x.start()] + post[x.end():]
    for x in re.finditer(r'(?<![\w.])(\d+)(?![\w.])', post):
        yield f'{x.group(1)} -> {int(x.group(1)) + 1}', pre + post[:x.start()] + str(int(x.group(1)) + 1) + post[x.end():]
    for x in re.finditer(r' = ', post):
        if 'if' in post[max(0, x.start() - 40):x.start()] or 'decide' in post[max(0, x.start() - 40):x.start()]:
            yield '= -> ≠', pre + post[:x.start()] + ' ≠ ' + post[x.end():]
    for x in re.finditer(r'\(([a-z]\w*) ([a-z]\w*) ([a-z]\w*)\)', post):
        yield 'arguments swapped', pre + post[:x.start()] + f'({x.group(1)} {x.group(3)} {x.group(2)})' + post[x.end():]


def generate(out):
    random.seed(7)
    named = set()
    for line in open(os.path.join(ROOT, 'seeded/LOG.jsonl')):
        for x in re.findall(r"[\w.']+", json.loads(line).get('definition', '')):
            named.add(x)
            named.add(x.split('.')[-1])
    res = []
    for g in sorted(glob.glob(os.path.join(SRC, 'Verif/Model/*.lean'))):
        t = open(g).read()
        for m in START.finditer(t):
            n = m.group(1)
            if n in named or n.split('.')[-1] in named:
                continue
            body = body_of(t, m)
            if t.count(body) != 1:
                continue
            c = list(candidates(body))
            random.shuffle(c)
            kinds = set()
            for kind, new in c:
                if kind in kinds or len(kinds) == 2:
                    continue
                kinds.add(kind)
                res.append({'file': os.path.relpath(g, SRC), 'definition': n, 'kind': kind, 'old': body, 'new': new})
    json.dump(res, open(out, 'w'), ensure_ascii=False, indent=1)
    print(len(res))


def declared(path, line):
    lines = open(path).read().split('\n')
    for k in range(min(line, len(lines)) - 1, -1, -1):
        m = DECL.match(lines[k])
        if m:
            return m.group(1), m.group(2) or ''
    return '', ''


def run(inp, out, log, part, n):
    muts = json.load(open(inp))[part::n]
    for mu in muts:
        subprocess.run(f'rm -rf {DST} && cp -a {SRC} {DST}', shell=True)
        p = os.path.join(DST, mu['file'])
        t = open(p).read()
        if t.count(mu['old']) != 1:
            continue
        open(p, 'w').write(t.replace(mu['old'], mu['new']))
        o = subprocess.run('timeout 1500 lake build 2>&1', shell=True, cwd=DST, stdout=subprocess.PIPE, text=True).stdout
        errs = re.findall(r'error: (Verif/\S+\.lean):(\d+):(\d+):', o)
        failed = sorted({(f'example in {os.path.basename(f)}' if k == 'example' else d)
                         for f, ln, _ in errs for k, d in [declared(os.path.join(DST, f), int(ln))]})
        in_model = any(f == mu['file'] for f, _, _ in errs)
        r = {'definition': mu['definition'], 'file': mu['file'], 'kind': mu['kind'], 'failed': failed,
             'status': 'invalid' if in_model else 'killed' if errs else 'survived' if 'Build completed' in o else 'unclear'}
        r['new'] = mu['new'] if r['status'] != 'killed' else ''
        open(out, 'a').write(json.dumps(r, ensure_ascii=False) + '\n')
        if log and r['status'] == 'killed':
            open(os.path.join(ROOT, 'seeded/LOG.jsonl'), 'a').write(json.dumps({
                'definition': mu['definition'], 'edit': mu['kind'] + ' in ' + mu['file'],
                'claim': 'what the theorems about ' + os.path.basename(mu['file'])[:-5] + ' say',
                'theorems_failed': failed, 'broken_proofs': failed, 'theorems_tightened': [],
                'note': 'systematic mutant; the declarations that fail first'}, ensure_ascii=False) + '\n')


if sys.argv[1] == 'generate':
    generate(sys.argv[2])
else:
    k = sys.argv.index('--part') if '--part' in sys.argv else None
    run(sys.argv[2], sys.argv[3], '--log' in sys.argv, int(sys.argv[k + 1]) if k else 0, int(sys.argv[k + 2]) if k else 1)
