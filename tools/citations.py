#!/usr/bin/env python3
"""Check the /repo citations of the model: the file exists, the lines are in it, and every
identifier in backquotes naming a C++ symbol of the comment occurs in a cited file.
Usage: citations.py [FILE.lean ...]   (default: every file under lean/Verif/Model)."""
import os, re, sys, glob
REPO = '/repo'
here = os.path.dirname(os.path.abspath(__file__))
files = sys.argv[1:] or sorted(glob.glob(os.path.join(here, '../lean/Verif/Model/*.lean')))
cite = re.compile(r'((?:src|include)/[\w./{},]+\.(?:cc|h))((?::\d+(?:-\d+)?)?)((?:(?:, | and )\d+(?:-\d+)?)*)')
n = bad = 0
for f in files:
    text = open(f).read()
    for m in re.finditer(r'/--(.*?)-/', text, re.S):
        doc, line = m.group(1), text[:m.start()].count('\n') + 1
        flat = re.sub(r'\s+', ' ', doc)
        sources = ''
        spans = []
        for c in cite.finditer(flat):
            path = c.group(1)
            if '{' in path: continue
            n += 1
            full = os.path.join(REPO, path)
            if not os.path.exists(full):
                print(f'{f}:{line}: no file {path}'); bad += 1; continue
            src = open(full).read().split('\n')
            sources += '\n'.join(src)
            for a, b in re.findall(r'(\d+)(?:-(\d+))?', c.group(2) + c.group(3)):
                a, b = int(a), int(b or a)
                if not (1 <= a <= b <= len(src)):
                    print(f'{f}:{line}: {path}:{a}-{b} out of range'); bad += 1; continue
                spans.append('\n'.join(src[a - 1:b]))
        if not spans: continue
        for s in spans:
            if s.count('\n') > 1 and s.count('{') != s.count('}'):
                print(f'{f}:{line}: unbalanced braces in the cited lines: {s.splitlines()[0].strip()[:60]} ... {s.splitlines()[-1].strip()[:40]}'); bad += 1
        first = re.match(r'\s*`([\w:~<>=!]+)', doc)
        if first:
            name = re.split(r'::', re.sub(r'<.*', '', first.group(1)))[-1]
            if name in ('class', 'struct', 'Queue'): continue
            if re.match(r'[A-Za-z_]\w*$', name) and not any(re.search(r'\b(do_|Do)?%s\b' % name, s) for s in spans):
                print(f'{f}:{line}: `{name}` not in the cited lines'); bad += 1
print(f'{n} citations, {bad} problems')
