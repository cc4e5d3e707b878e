#!/usr/bin/env python3
"""Write DESIGN.md from tools/design_head.md, properties.jsonl, tools/how.json and tools/claims.json."""
import json
props=[json.loads(l) for l in open('/verif/properties.jsonl')]
how=json.load(open('/verif/tools/how.json')); claims=json.load(open('/verif/tools/claims.json'))
man={c['property']:c for c in json.load(open('/verif/MANIFEST.json'))['claims']}
out=[open('/verif/tools/design_head.md').read().rstrip(),'','## 5. Property by property','',
'For each property: how it is modelled and proved; then its status with what is missing or false of the code, and the names of the theorems (without namespace).','']
for p in props:
    i=p['id']; c=claims.get(i,{'status':'?','note':''})
    th=', '.join(t.split('.')[-1] for t in man.get(i,{}).get('theorems',[]))
    if i not in how: print('no how for',i)
    out+=[f"- **{i} {p['title']}.** {how.get(i,'')} *{c['status']}.* {c['note']} [{th}]"]
open('/verif/DESIGN.md','w').write('\n'.join(out)+'\n')
