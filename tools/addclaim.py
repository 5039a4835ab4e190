#!/usr/bin/env python3
# usage: addclaim.py C49 status "note" thm1 thm2 ...   (adds theorems to a claim; status/note '-' keeps)
import json,sys
p='/verif/tools/claims.json'
c=json.load(open(p))
pid,st,note,*th=sys.argv[1:]
x=next((x for x in c if x['property']==pid),None)
if x is None:
    x={'property':pid,'status':'proved','theorems':[],'note':''}; c.append(x); c.sort(key=lambda x:x['property'])
if st!='-': x['status']=st
if note!='-': x['note']=note
for t in th:
    t='FMV.'+t
    if t not in x['theorems']: x['theorems'].append(t)
json.dump(c,open(p,'w'),indent=1)
