#!/usr/bin/env python3
"""Regenerates MANIFEST.json; claims are in tools/claims.py as C(id,status,[theorems],note)."""
import json,os,re
here=os.path.dirname(__file__); root=os.path.join(here,'..')
claims=[]
def C(pid,status,thms,note=""): claims.append(dict(property=pid,status=status,theorems=thms,note=note))
exec(open(os.path.join(here,'claims.py')).read())
ids=[json.loads(l)['id'] for l in open(os.path.join(root,'properties.jsonl'))]
claims.sort(key=lambda c:ids.index(c['property']))
have=[c['property'] for c in claims]
assert len(set(have))==len(have), "dup"
for i in ids:
    if i not in have: print("no claim yet:",i)
# check that the names exist
names=set()
for d,_,fs in os.walk(os.path.join(root,'lean/Verif')):
    for f in fs:
        if not f.endswith('.lean'): continue
        stack=[]
        for line in open(os.path.join(d,f)):
            m=re.match(r'namespace (\S+)',line)
            if m: stack.append(m.group(1))
            m=re.match(r'end (\S+)',line)
            if m and stack and stack[-1]==m.group(1): stack.pop()
            m=re.match(r'(?:@\[[^\]]*\] *)?theorem (\S+)',line)
            if m: names.add('.'.join(stack+[m.group(1)]))
for c in claims:
    for t in c['theorems']:
        if t not in names: print("MISSING THEOREM",c['property'],t)
json.dump(dict(claims=claims),open(os.path.join(root,'MANIFEST.json'),'w'),indent=1)
print(len(claims),"claims")
