#!/usr/bin/env python3
"""Mutation testing helper.  Usage: mut.py SPEC.json ...  (run from anywhere)
Each SPEC is a JSON list of {file, old, new, defn, edit, breaks, target:[modules]}.
Works in a scratch copy /tmp/mut/lean; appends one line per attempt to seeded/LOG.jsonl."""
import json,sys,os,subprocess,re,shutil
root=os.path.abspath(os.path.join(os.path.dirname(__file__),'..'))
scr='/tmp/mut/lean'
os.makedirs('/tmp/mut',exist_ok=True)
subprocess.run(['rsync','-a','--delete',root+'/lean/',scr+'/'],check=True) if shutil.which('rsync') else (shutil.rmtree(scr,ignore_errors=True),subprocess.run(['cp','-a',root+'/lean',scr],check=True))
def decl_at(path,line):
    name='?'
    for i,l in enumerate(open(path),1):
        if i>line: break
        m=re.match(r'\s*(?:@\[[^\]]*\] *)?(?:private )?(theorem|def|example|instance|abbrev|structure)\s*(\S*)',l)
        if m: name=m.group(2) if m.group(1)!='example' else 'example@%d'%i
    return name
for spec in sys.argv[1:]:
    for m in json.load(open(spec)):
        path=os.path.join(scr,m['file']); src=open(path).read()
        if src.count(m['old'])!=1:
            print("!! pattern count",src.count(m['old']),m['defn'],m['edit']); continue
        open(path,'w').write(src.replace(m['old'],m['new']))
        try: r=subprocess.run(['lake','build']+m['target'],cwd=scr,capture_output=True,text=True,timeout=1500)
        except subprocess.TimeoutExpired: r=None
        failed=[]
        out=(r.stdout+r.stderr) if r else ''
        for mm in re.finditer(r'error: (Verif/\S+\.lean):(\d+):\d+',out):
            d=decl_at(os.path.join(scr,mm.group(1)),int(mm.group(2)))
            d='%s (%s)'%(d,mm.group(1))
            if d not in failed: failed.append(d)
        open(path,'w').write(src)
        ok=bool(r and r.returncode==0)
        print(("SURVIVED " if ok else "killed   ")+m['defn']+' :: '+m['edit']+' -> '+'; '.join(failed[:6]))
        rec=dict(definition=m['defn'],file=m['file'],edit=m['edit'],claim_broken=m['breaks'],theorems_failed=failed if not ok else [],theorems_tightened=m.get('tightened',[]))
        if ok: rec['note']=m.get('note','survived')
        open(root+'/seeded/LOG.jsonl','a').write(json.dumps(rec)+'\n')
