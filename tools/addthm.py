#!/usr/bin/env python3
"""tools/addthm.py Cxx name…: adds theorems to a claim in tools/claims.txt."""
import sys
c=sys.argv[1]; p="/verif/tools/claims.txt"; ls=open(p).read().split("\n")
for i,l in enumerate(ls):
    f=l.split(" | ")
    if f[0]==c:
        for n in sys.argv[2:]:
            if n not in f[2].split(", "): f[2]+=", "+n
        ls[i]=" | ".join(f)
open(p,"w").write("\n".join(ls))
