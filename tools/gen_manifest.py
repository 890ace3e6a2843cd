#!/usr/bin/env python3
"""Generates /verif/MANIFEST.json and checks that the theorem names exist."""
import json,re,glob
names=set()
for f in glob.glob('/verif/lean/Verif/**/*.lean',recursive=True):
    for l in open(f):
        m=re.match(r'(?:@\[[^\]]*\] *)?(?:noncomputable )?theorem ([A-Za-z0-9_.\']+)',l)
        if m: names.add(m.group(1))
C=[]
def c(p,status,thms,note=""):
    for t in thms.split():
        if t not in names: print("MISSING",p,t)
    C.append(dict(property=p,status=status,theorems=["Trento."+t for t in thms.split()],note=note))
exec(open('/verif/tools/claims.py').read())
allp=[json.loads(l)["id"] for l in open('/verif/properties.jsonl')]
have={x["property"] for x in C}
print("no claim:", [p for p in allp if p not in have])
json.dump({"claims":C},open('/verif/MANIFEST.json','w'),indent=1)
used={t for x in C for t in x["theorems"]}
print("unclaimed C-theorems:",[n for n in sorted(names) if re.match(r'C\d\d',n) and "Trento."+n not in used])
