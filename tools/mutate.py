#!/usr/bin/env python3
"""Seeded-bug testing.  usage: mutate.py mutations.json
Each entry: {"file": "Verif/X/Model.lean", "def": name, "old": str, "new": str, "claim": "what breaks",
"expect": ["C09"], "target": "Verif.X.Props"}.  Works in a scratch copy (/tmp/mut), rebuilds, and
appends one line per attempt to seeded/LOG.jsonl.  `--dry` does not log."""
import json,sys,subprocess,re,os,shutil
root='/verif'
scratch='/tmp/mut'
dry='--dry' in sys.argv
muts=json.load(open([a for a in sys.argv[1:] if not a.startswith('--')][0]))
subprocess.run(['rsync','-a','--delete',root+'/lean/',scratch+'/'],check=True) if shutil.which('rsync') else (shutil.rmtree(scratch,ignore_errors=True),shutil.copytree(root+'/lean',scratch,symlinks=True))
def enclosing(path,line):
    name=None
    for i,l in enumerate(open(path),1):
        m=re.match(r'(?:private )?(?:theorem|lemma|def|instance|example)\s*(\S*)',l)
        if m:
            if i>line: break
            name=m.group(1) if not l.startswith('example') else 'example@%d'%i
    return name
for m in muts:
    p=f"{scratch}/{m['file']}"
    src=open(p).read()
    n=src.count(m['old'])
    if n!=1:
        print('BAD MUTATION',m['def'],'occurrences',n,repr(m['old'])); continue
    open(p,'w').write(src.replace(m['old'],m['new']))
    r=subprocess.run(['lake','build']+m['target'].split(),cwd=scratch,capture_output=True,text=True)
    out=r.stdout+r.stderr
    failed=[]
    for f,l in re.findall(r'error: (Verif/\S+?\.lean):(\d+):\d+',out):
        nm=enclosing(f'{scratch}/{f}',int(l))
        if nm and nm not in failed: failed.append(nm)
    blocked=sorted(set(re.findall(r'^- (Verif\.\S+)',out,re.M)))
    if not failed and blocked and 'Lean exited with code' in out: failed=['module '+b+' (the prover gave up: out of memory)' for b in blocked]
    open(p,'w').write(src)
    entry={"definition":m['def'],"file":m['file'],"edit":m['old'].strip()+"  ==>  "+m['new'].strip(),"claim_broken":m['claim'],"theorems_failed":failed,"tightened":m.get('tightened',[])}
    if not failed: entry["note"]=m.get('note','SURVIVED')
    print(('killed ' if failed else 'SURVIVED '),m['def'],'|',m['claim'],'|',failed[:8])
    if not dry:
        open(root+'/seeded/LOG.jsonl','a').write(json.dumps(entry,ensure_ascii=False)+'\n')
