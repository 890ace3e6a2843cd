#!/usr/bin/env python3
"""Mutation testing: apply each edit of mutants.py to a scratch copy of the model, rebuild, log the theorems that fail.
usage: mutate.py BASE WORK OUT [start [end]]   (BASE: a built copy of /verif/lean)"""
import sys, os, re, json, subprocess, time
sys.path.insert(0, os.path.dirname(__file__))
from mutants import M
base, work, out = sys.argv[1:4]
start = int(sys.argv[4]) if len(sys.argv) > 4 else 0
end = int(sys.argv[5]) if len(sys.argv) > 5 else len(M)
decl = re.compile(r'^\s*(?:@\[.*?\]\s*)?(?:private |protected |noncomputable |nonrec )*(theorem|lemma|def|instance|example|structure|abbrev)\s*([^\s:({\[]*)')
def enclosing(path, line):
    L = open(path).read().split('\n')
    for i in range(min(line, len(L)) - 1, -1, -1):
        g = decl.match(L[i])
        if g: return (g.group(2) or f'{g.group(1)}@{os.path.basename(path)}:{i+1}')
    return f'?@{path}:{line}'
for k in range(start, end):
    f, d, old, new, claim = M[k]
    subprocess.run(f'rm -rf {work} && cp -a {base} {work}', shell=True, check=True)
    p = f'{work}/Verif/Model/{f}'
    s = open(p).read()
    i = s.find('def ' + d + ' ')
    if i < 0: i = s.find('def ' + d.split('.')[-1] + ' ')
    j = s.find(old, i) if i >= 0 else -1
    if j < 0:
        print(k, d, 'PATTERN NOT FOUND', flush=True); continue
    open(p, 'w').write(s[:j] + new + s[j+len(old):])
    t = time.time()
    r = subprocess.run(['lake', 'build'], cwd=work, capture_output=True, text=True)
    txt = r.stdout + r.stderr
    failed = []
    for g in re.finditer(r'error: (Verif/[^\s:]+\.lean):(\d+):\d+', txt):
        n = enclosing(f'{work}/{g.group(1)}', int(g.group(2)))
        if n not in failed: failed.append(n)
    e = {'definition': d, 'file': 'lean/Verif/Model/' + f, 'edit': f'{old.strip()!r} -> {new.strip()!r}', 'claim': claim,
         'failed': failed, 'survived': r.returncode == 0, 'tightened': []}
    if 'Verif/Model/' in txt and any(('error: Verif/Model/' + f) in l for l in txt.split('\n')): e['model_error'] = True
    open(out, 'a').write(json.dumps(e, ensure_ascii=False) + '\n')
    print(k, d, 'SURVIVED' if r.returncode == 0 else len(failed), round(time.time() - t), failed[:4], e.get('model_error', ''), flush=True)
