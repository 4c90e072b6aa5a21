"""Regenerate MANIFEST.json: theorem names are collected from lean/Verif/Props, status/notes below."""
import re,glob,json
notes=json.load(open('/verif/tools/notes.json'))
th={}
for f in sorted(glob.glob('/verif/lean/Verif/Props/*.lean')):
    ns=[]
    for line in open(f):
        m=re.match(r'namespace (\S+)',line)
        if m: ns.append(m.group(1))
        m=re.match(r'end (\S+)',line)
        if m and ns and ns[-1]==m.group(1): ns.pop()
        m=re.match(r'(?:@\[[^\]]*\] )?theorem (C\d\d\w*)',line)
        if m:
            n=m.group(1)
            th.setdefault(n[:3],[]).append('.'.join(ns+[n]))
claims=[]
for l in open('/verif/properties.jsonl'):
    p=json.loads(l)['id']
    t=th.get(p,[])
    if not t: continue
    st,note=notes.get(p,("partial" if any('partial' in x or 'violated' in x for x in t) else "proved",""))
    claims.append({"property":p,"status":st,"theorems":t,"note":note})
json.dump({"claims":claims},open('/verif/MANIFEST.json','w'),indent=1)
print({c['property']:(c['status'],len(c['theorems'])) for c in claims})
print('missing',[json.loads(l)['id'] for l in open('/verif/properties.jsonl') if json.loads(l)['id'] not in th])
