#!/usr/bin/env python3
"""Mutation testing of the theorems.

usage: mutate.py MUTATIONS.json [--log]

MUTATIONS.json: list of {file, definition, old, new, claim, note?}; `old` must
occur exactly once in `file` (relative to lean/).  Each mutation is applied to a
scratch copy of the Lean project; proofs that fail are replaced by `sorry` until
everything builds; then every theorem of `Maliput.Props` that depends on `sorryAx`
is reported as failed.  With --log a line is appended to seeded/LOG.jsonl.
"""
import json, os, re, subprocess, sys

SRC = os.environ.get('MUTSRC', '/tmp/mutsrc')
DST = os.environ.get('MUTDIR', '/tmp/mut')
DECL = re.compile(r'^(?:@\[[^\]]*\]\s*)?(?:private |protected |noncomputable )*(theorem|lemma|example|def|instance|structure|inductive|abbrev)\b\s*(\S+)?')


def sh(cmd, cwd=DST):
    return subprocess.run(cmd, shell=True, cwd=cwd, stdout=subprocess.PIPE, stderr=subprocess.STDOUT, text=True).stdout


def find_assign(text):
    depth = 0
    i = 0
    while i < len(text):
        c = text[i]
        if text.startswith('--', i):
            i = text.find('\n', i)
            if i < 0:
                return -1
            continue
        if re.match(r"'[^\\\n]'", text[i:i + 3]):
            i += 3
            continue
        if c in '([{⟨':
            depth += 1
        elif c in ')]}⟩':
            depth -= 1
        elif depth == 0 and text.startswith(':=', i) and not re.search(r'\b(let|have)\b[^\n;)]*$', text[:i]):
            return i
        i += 1
    return -1


def decl_start(path, line):
    lines = open(path).read().split('\n')
    # an error reported at a doc comment belongs to the declaration that follows
    if line <= len(lines) and lines[line - 1].startswith('/--'):
        for k in range(line - 1, len(lines)):
            if DECL.match(lines[k]):
                return k
    for k in range(min(line, len(lines)) - 1, -1, -1):
        if DECL.match(lines[k]):
            return k
    return None


def sorry_out(path, line):
    """Replace the proof of the declaration that starts at `line` by sorry. Returns its name or None."""
    lines = open(path).read().split('\n')
    start = line
    m = DECL.match(lines[start])
    if m.group(1) not in ('theorem', 'lemma', 'example'):
        return None
    end = len(lines)
    for k in range(start + 1, len(lines)):
        if lines[k] and not lines[k][0].isspace() and not lines[k].startswith('--'):
            if re.match(r'(theorem|lemma|example|def|instance|structure|inductive|abbrev|noncomputable|private|protected|open|end|namespace|section|variable|set_option|/--|/-!|@\[|local|attribute|mutual)', lines[k]):
                end = k
                break
    if m.group(1) == 'example':
        lines[start:end] = ['example : True := trivial', '']
        open(path, 'w').write('\n'.join(lines))
        return 'example'
    body = '\n'.join(lines[start:end])
    pos = find_assign(body)
    eqn = re.search(r'\n\s+\| [^\n]*=>', body)
    if eqn and (pos < 0 or eqn.start() < pos):
        pos = eqn.start()
    if pos < 0:
        # equation-style definition: cut at first line starting with |
        mm = re.search(r'\n\s*\|', body)
        if not mm:
            return None
        pos = mm.start()
    new = body[:pos] + ':= sorry'
    lines[start:end] = new.split('\n') + ['']
    open(path, 'w').write('\n'.join(lines))
    name = m.group(2) or ''
    return 'example' if m.group(1) == 'example' else name


CHECK = '''
import Verif
open Lean Elab Command
run_cmd do
  let env ← getEnv
  for (n, ci) in env.constants.map₁.toList do
    if (`Maliput.Props).isPrefixOf n && !n.isInternal then
      if let .thmInfo _ := ci then
        let ax ← liftCoreM (collectAxioms n)
        if ax.contains ``sorryAx then logInfo m!"FAILED {n}"
'''


def run(mut):
    os.makedirs(DST, exist_ok=True)
    sh(f"rm -rf {DST} && cp -a {SRC} {DST}", cwd="/")
    edits = mut.get('edits') or [mut]
    for e in edits:
        p = os.path.join(DST, e['file'])
        t = open(p).read()
        if t.count(e['old']) != 1:
            return {'error': f"old occurs {t.count(e['old'])} times: {e['old'][:60]}"}
        open(p, 'w').write(t.replace(e['old'], e['new']))
    direct = []
    for it in range(25):
        out = sh('lake build 2>&1')
        errs = re.findall(r'error: (Verif/\S+\.lean):(\d+):(\d+):', out)
        if not errs and 'exited with code 137' in out:
            # a proof that computes runs out of memory: find it with a limit
            for mod in re.findall(r'Building (Verif\.\S+)', out):
                path = mod.replace('.', '/') + '.lean'
                res = sh(f'lake env lean -M 4000 {path} 2>&1')
                errs += [(path, l, c) for l, c in re.findall(r'\.lean:(\d+):(\d+): error', res)]
        if not errs:
            if 'build failed' in out or 'error:' in out:
                return {'error': 'build failed: ' + out[-600:]}
            break
        if os.environ.get('MUTDEBUG'): print(it, errs[:6], file=sys.stderr)
        progress = False
        for f in sorted(set(e[0] for e in errs)):
            ls = sorted({decl_start(os.path.join(DST, f), int(e[1])) for e in errs if e[0] == f}, reverse=True)
            # go bottom-up so that line numbers stay valid
            seen = set()
            for ln in ls:
                nm = sorry_out(os.path.join(DST, f), ln)
                if nm is None:
                    return {'error': f'{f}:{ln} not a theorem: ' + out[:1500]}
                progress = True
                key = (f, nm)
                if key not in seen:
                    direct.append(nm if nm != 'example' else f'example in {os.path.basename(f)}')
                seen.add(key)
        if not progress:
            return {'error': 'no progress'}
    else:
        return {'error': 'does not build: ' + out[:600]}
    open(os.path.join(DST, 'check_tmp.lean'), 'w').write('import Lean\n' + CHECK.lstrip())
    out = sh('lake env lean check_tmp.lean')
    failed = sorted(set(re.findall(r'FAILED (?:Maliput\.Props\.)?(\S+)', out)))
    return {'failed': failed, 'direct': sorted(set(direct)), 'raw': out[-300:] if not failed else ''}


def main():
    muts = json.load(open(sys.argv[1]))
    log = '--log' in sys.argv
    for m in muts:
        r = run(m)
        print(json.dumps({'definition': m['definition'], 'edit': m.get('edit') or (m['old'] + '  =>  ' + m['new']), **r}, ensure_ascii=False), flush=True)
        if log and 'error' not in r:
            with open('/verif/seeded/LOG.jsonl', 'a') as f:
                f.write(json.dumps({
                    'definition': m['definition'], 'edit': m.get('edit') or (m['old'] + '  =>  ' + m['new']),
                    'claim': m['claim'], 'theorems_failed': r['failed'], 'broken_proofs': r['direct'],
                    'theorems_tightened': m.get('tightened', []), 'note': m.get('note', '')}, ensure_ascii=False) + '\n')


main()
