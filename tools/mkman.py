import json,re,subprocess,os
claims=json.load(open('/verif/tools/claims.json'))
props=[json.loads(l)['id'] for l in open('/verif/properties.jsonl')]
# collect theorem names by prefix
names={}
import glob
for f in sorted(glob.glob('/verif/lean/Verif/Props/*.lean')):
    ns=[]
    for line in open(f):
        m=re.match(r'namespace (\S+)',line)
        if m: ns.append(m.group(1))
        m=re.match(r'end (\S+)',line)
        if m and ns and ns[-1]==m.group(1): ns.pop()
        m=re.match(r'theorem (C(\d\d\d?)_\S+)',line)
        if m: names.setdefault('C'+m.group(2),[]).append('.'.join(ns+[m.group(1)]))
out=[]
for p in props:
    c=claims.get(p,{})
    th=names.get(p,[])
    st=c.get('status','proved' if th else 'not_applicable')
    out.append(dict(property=p,status=st,theorems=th,note=c.get('note','')))
    if not th: print("no theorems:",p)
json.dump({"claims":out},open('/verif/MANIFEST.json','w'),indent=1)
for k in names:
    if k not in props: print("theorem for unknown prop",k)
