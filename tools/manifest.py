#!/usr/bin/env python3
"""Regenerates MANIFEST.json: status and notes come from claims.json, theorem names from the
Props files (every theorem whose name starts with the property id)."""
import json,re,glob,os
root=os.path.dirname(os.path.dirname(os.path.abspath(__file__)))
names={}
for f in sorted(glob.glob(root+'/lean/Verif/**/Props*.lean',recursive=True)):
    ns=[]
    for line in open(f):
        m=re.match(r'namespace (\S+)',line)
        if m: ns.append(m.group(1))
        m=re.match(r'end (\S+)',line)
        if m and ns and ns[-1]==m.group(1): ns.pop()
        m=re.match(r'theorem ((C\d\d+)_\S+)',line)
        if m: names.setdefault(m.group(2),[]).append('.'.join(ns+[m.group(1)]))
claims=json.load(open(root+'/tools/claims.json'))
out=[]
for l in open(root+'/properties.jsonl'):
    p=json.loads(l)['id']
    c=claims.get(p)
    th=names.get(p,[])
    if not th: 
        print('no theorem for',p); continue
    st=c['status'] if c else 'partial'
    if not c: print('no claim entry for',p)
    out.append({"property":p,"status":st,"theorems":th,"note":(c or {}).get('note','')})
json.dump({"claims":out},open(root+'/MANIFEST.json','w'),indent=1,ensure_ascii=False)
print(len(out),'claims;',sum(len(c['theorems']) for c in out),'theorems')
