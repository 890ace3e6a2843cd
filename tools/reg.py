import sys,re
# usage: pass list of dicts
def reg(items):
    f='/verif/tools/gen_props.py';s=open(f).read()
    marker='with open("/verif/properties.jsonl"'
    add=''
    for it in items:
        add+='p('+',\n  '.join([repr(it['title']),repr(it['st']),repr(it['q']),repr(it['why']),', '.join(repr(a) for a in it['anchors'])])+')\n'
    s=s.replace(marker,add+marker,1);open(f,'w').write(s)
    f='/verif/tools/claims.py';s=open(f).read().rstrip()+'\n'
    for it in items: s+='c(%r,%r,%r,%r)\n'%(it['id'],it.get('status','proved'),it['thms'],it['note'])
    open(f,'w').write(s)
    f='/verif/DESIGN.md';s=open(f).read().split('\n')
    for it in items:
        k=max(i for i,l in enumerate(s) if re.match(r'\| C\d+ \|',l))
        s.insert(k+1,'| %s | %s | %s |'%(it['id'],it['model'],it['proof']))
    open(f,'w').write('\n'.join(s))
