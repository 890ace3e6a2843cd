#!/usr/bin/env python3
"""Systematic mutation: apply generic operators (arithmetic, comparison, logical, constants, strings) to every code line of the model
modules, rebuild a scratch copy, stop at the first failure.  usage: automutate.py BASE WORK OUT files... [-s part/parts]"""
import sys, os, re, json, subprocess, time, signal, random
args = sys.argv[1:]
part, parts = 0, 1
if '-s' in args:
    i = args.index('-s'); part, parts = map(int, args[i+1].split('/')); del args[i:i+2]
base, work, out, files = args[0], args[1], args[2], args[3:]
decl = re.compile(r'^\s*(?:@\[.*?\]\s*)?(?:private |protected |noncomputable |nonrec )*(theorem|lemma|def|instance|example|structure|abbrev|inductive|class)\s*([^\s:({\[]*)')
def enclosing(path, line):
    L = open(path).read().split('\n')
    for i in range(min(line, len(L)) - 1, -1, -1):
        g = decl.match(L[i])
        if g: return (g.group(2) or f'{g.group(1)}@{os.path.basename(path)}:{i+1}')
    return '?'
OPS = [(r' \+ ', ' - '), (r' - ', ' + '), (r' \* ', ' / '), (r' / ', ' * '), (r' && ', ' || '), (r' \|\| ', ' && '), (r' ∧ ', ' ∨ '), (r' ∨ ', ' ∧ '),
       (r' < ', ' ≤ '), (r' ≤ ', ' < '), (r' ≥ ', ' > '), (r' > ', ' ≥ '), (r'\btrue\b', 'false'), (r'\bfalse\b', 'true'), (r' ≠ ', ' = '), (r' = (?!>)', ' ≠ '), (r' == ', ' != '),
       (r'\bsin\b', 'cos'), (r'\bcos\b', 'sin'), (r'\bexp\b', 'log'), (r'\bfloor\b', 'ceil'), (r'\bceil\b', 'floor'), (r' \+\+ ', None)]
def mutants(f):
    L = open(f'{base}/Verif/Model/{f}').read().split('\n')
    incom = False
    for i, l in enumerate(L):
        if not incom and l.lstrip().startswith('/-'): incom = True
        if incom:
            if '-/' in l: incom = False
            continue
        c = l.split('--')[0]
        if not c.strip() or c.startswith(('import', 'namespace', 'open', 'end', 'section', 'variable', 'set_option', 'theorem', 'instance', 'class')): continue
        if 'deriving' in c: continue
        for pat, rep in OPS:
            for g in re.finditer(pat, c):
                if rep is None:
                    continue
                if 'throw' in c[:g.start()]: continue
                yield (f, i, l[:g.start()] + rep + l[g.end():])
        for g in re.finditer(r'(?<![\w.$])(\d+)(?![\w.])', c):
            if 'throw' in c[:g.start()]: continue
            yield (f, i, l[:g.start()] + str(int(g.group(1)) + 1) + l[g.end():])
        for g in re.finditer(r'(?<![\w])(\d+\.\d+)(?!\w)', c):
            yield (f, i, l[:g.start()] + g.group(1) + '1' + l[g.end():])
        for g in re.finditer(r'\blt (\([^()]*\)|[\w.]+) (\([^()]*\)|[\w.]+)', c):
            yield (f, i, l[:g.start()] + f'lt {g.group(2)} {g.group(1)}' + l[g.end():])
        for g in re.finditer(r'(?<![\w])!(?=[\w(])', c):
            yield (f, i, l[:g.start()] + l[g.end():])
        for g in re.finditer(r'"([^"]*)"', c):
            if 'throw' in c[:g.start()] or 'ub ' in c[:g.start()]: continue
            yield (f, i, l[:g.start()] + '"' + g.group(1) + 'x"' + l[g.end():])
M = [m for f in files for m in mutants(f)]
done = set()
if os.path.exists(out):
    for x in open(out):
        d = json.loads(x); done.add((d['file'], d['line'], d['new']))
print(len(M), 'mutants', flush=True)
for k, (f, i, new) in enumerate(M):
    if k % parts != part: continue
    if (f, i + 1, new.strip()) in done: continue
    subprocess.run(f'rm -rf {work} && cp -a {base} {work}', shell=True, check=True)
    p = f'{work}/Verif/Model/{f}'
    L = open(p).read().split('\n'); old = L[i]; L[i] = new; open(p, 'w').write('\n'.join(L))
    t = time.time()
    r = subprocess.Popen(['lake', 'build'], cwd=work, stdout=subprocess.PIPE, stderr=subprocess.STDOUT, text=True, start_new_session=True)
    fail = None; model = False
    for line in r.stdout:
        g = re.match(r'.*error: (Verif/[^\s:]+\.lean):(\d+):\d+', line)
        if g:
            fail = (g.group(1), int(g.group(2))); model = g.group(1) == f'Verif/Model/{f}'
            break
    if fail: os.killpg(r.pid, signal.SIGKILL)
    r.wait()
    surv = fail is None and r.returncode == 0
    name = enclosing(f'{work}/{fail[0]}', fail[1]) if fail else None
    e = dict(file=f, line=i+1, definition=enclosing(p, i+1), old=old.strip(), new=new.strip(), first_failed=name, at=fail[0] if fail else None, model_error=model, survived=surv)
    open(out, 'a').write(json.dumps(e, ensure_ascii=False) + '\n')
    print(k, f, i+1, e['definition'], 'SURVIVED' if surv else ('type error' if model else name), round(time.time() - t), flush=True)
