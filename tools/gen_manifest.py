#!/usr/bin/env python3
"""Collects theorem names C<nn>_* from lean/Verif/Props and writes MANIFEST.json.
Status and notes come from tools/notes.json."""
import re,json,glob
thms={}
for f in sorted(glob.glob('/verif/lean/Verif/Props/*.lean')):
    ns=[]
    for line in open(f):
        m=re.match(r'namespace\s+(\S+)',line)
        if m: ns.append(m.group(1)); continue
        m=re.match(r'end\s+(\S+)\s*$',line)
        if m and ns and ns[-1]==m.group(1): ns.pop(); continue
        m=re.match(r'theorem\s+(C\d\d+)_(\S+)',line)
        if m: thms.setdefault(m.group(1),[]).append('.'.join(ns+[m.group(1)+'_'+m.group(2)]))
notes=json.load(open('/verif/tools/notes.json'))
ids=[json.loads(l)['id'] for l in open('/verif/properties.jsonl')]
claims=[]
for i in ids:
    n=notes.get(i,{})
    t=thms.get(i,[])
    if not t and n.get('status')!='not_applicable': continue
    st=n.get('status') or ('partial' if any(x.endswith('_partial') for x in t) else 'proved')
    claims.append({"property":i,"status":st,"theorems":t,"note":n.get('note','')})
json.dump({"claims":claims},open('/verif/MANIFEST.json','w'),indent=1,ensure_ascii=False)
print(len(claims),'claims',sum(len(c['theorems']) for c in claims),'theorems')
print('missing:',[i for i in ids if i not in [c['property'] for c in claims]])
