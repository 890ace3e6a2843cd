#!/usr/bin/env python3
"""Writes /verif/AXIOMS.md: the axioms each claimed theorem depends on, as printed by Lean."""
import json,subprocess,re
m=json.load(open('/verif/MANIFEST.json'))
thms=[(c['property'],t) for c in m['claims'] for t in c['theorems']]
src='import Verif\n'+''.join(f'#print axioms {t}\n' for t in dict.fromkeys(t for _,t in thms))
open('/tmp/axioms_check.lean','w').write(src)
out=subprocess.run(['lake','env','lean','/tmp/axioms_check.lean'],cwd='/verif/lean',capture_output=True,text=True).stdout
ax={}
for x in re.finditer(r"'([^']+(?:'[^' ]*)?)' (?:depends on axioms: \[([^\]]*)\]|(does not depend on any axioms))",out):
    ax[x.group(1)]=sorted(re.sub(r'\s+',' ',x.group(2)).replace(' ','').split(',')) if x.group(2) else []
groups={}
with open('/verif/AXIOMS.md','w') as f:
    f.write('# Axioms of the claimed theorems\n\nGenerated by tools/gen_axioms.py from `#print axioms`. `propext`, `Classical.choice` and `Quot.sound` are the three standard axioms of Lean.\n\n| property | theorem | axioms |\n|---|---|---|\n')
    for p,t in thms:
        f.write(f"| {p} | `{t}` | {', '.join(ax[t]) if t in ax and ax[t] else ('none' if t in ax else 'NOT FOUND')} |\n")
bad=[t for _,t in thms if t not in ax or not set(ax[t])<={'propext','Classical.choice','Quot.sound'}]
print('theorems',len(thms),'bad',bad)
