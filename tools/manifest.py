#!/usr/bin/env python3
# Generates MANIFEST.json from tools/claims.txt:
# lines "Cxx | status | thm, thm | note"
import json
claims=[]
for l in open('/verif/tools/claims.txt'):
    l=l.strip()
    if not l or l.startswith('#'): continue
    p,s,t,n=[x.strip() for x in l.split('|',3)]
    claims.append({"property":p,"status":s,"theorems":[x.strip() for x in t.split(',') if x.strip()],"note":n})
json.dump({"claims":claims},open('/verif/MANIFEST.json','w'),indent=1)
print(len(claims))
