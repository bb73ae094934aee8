#!/usr/bin/env python3
"""Random seeded bugs.  tools/automut.py <worker> <workers> <seed> <lines per mutant>: edits one token or match arm of a model definition in a scratch copy,
rebuilds and writes one JSON line per mutant to /tmp/am/out.<worker>.jsonl.  Survivors are inspected by hand and logged in seeded/LOG.jsonl."""
import sys, os, re, json, random, subprocess, time, glob
V="/verif"; W=int(sys.argv[1]); N=int(sys.argv[2]); SEED=int(sys.argv[3]); PER=int(sys.argv[4])
S=f"/tmp/am/w{W}"
os.makedirs("/tmp/am",exist_ok=True)
subprocess.run(["rm","-rf",S]); subprocess.run(["cp","-a",V+"/lean",S])
OPS=[(r" < "," ≤ "),(r" ≤ "," < "),(r" > "," ≥ "),(r" ≥ "," > "),(r" == "," != "),(r" != "," == "),(r" && "," || "),(r" \|\| "," && "),(r" ∧ "," ∨ "),(r" ∨ "," ∧ "),
     (r"\btrue\b","false"),(r"\bfalse\b","true"),(r" \+ 1\b",""),(r" - 1\b",""),(r" \+ "," - "),(r" - "," + "),(r" \* "," + "),(r"\.reverse\b",""),(r"(?<=\()!",""),(r" ≠ "," = "),
     (r"\b(?<![\w.])(\d+)\b(?!\w)",None),(r"(?<=if )(.+?)(?= then)","COND"),(r"\.1\b",".2"),(r"\.2\b",".1"),(r"\.any\b",".all"),(r"\.all\b",".any"),(r"\.head\?",".getLast?"),(r"\.isSome\b",".isNone"),(r"\.isNone\b",".isSome"),
     (r"\.ok\b(?=.*\.error)",None)]
def code_lines(src):
    ls=src.split("\n"); out=[]; incom=False; indef=False
    for i,l in enumerate(ls):
        st=l.strip()
        if incom:
            if "-/" in l: incom=False
            continue
        if st.startswith("/-"):
            if "-/" not in l: incom=True
            continue
        if re.match(r"(private |partial |protected |@\[.*\] )*(def|abbrev)\b",l): indef=True
        elif re.match(r"(inductive|structure|instance|theorem|namespace|end|import|open|variable|deriving|class|mutual|example|section|set_option)\b",l): indef=False
        if indef and st and not st.startswith("--"): out.append(i)
    return ls,out
def muts(f):
    src=open(f).read(); ls,idx=code_lines(src); res=[]
    for i in idx:
        l=ls[i]
        body=l
        off=0
        if re.match(r"(private |partial |protected |@\[.*\] )*(def|abbrev)\b",l):
            k=l.find(":=")
            if k<0: continue
            off=k
        for pat,rep in OPS:
            for m in re.finditer(pat,l):
                if m.start()<off: continue
                if rep is None:
                    if not m.group(0).isdigit(): continue
                    r=str(int(m.group(0))+1)
                elif rep=="COND": r="¬ ("+m.group(0)+")"
                else: r=rep
                res.append((i,l,l[:m.start()]+r+l[m.end():]))
        # match arm: body of the next arm
        m=re.match(r"(\s*\| .+? => )(.+)$",l)
        if m and i+1<len(ls):
            m2=re.match(r"(\s*\| .+? => )(.+)$",ls[i+1])
            if m2 and m2.group(2)!=m.group(2) and len(m.group(1))-len(m.group(1).lstrip())==len(m2.group(1))-len(m2.group(1).lstrip()):
                res.append((i,l,m.group(1)+m2.group(2)))
                res.append((i+1,ls[i+1],m2.group(1)+m.group(2)))
        # record update dropped
        for m in re.finditer(r"\{ (\w+) with [^{}]*\}",l):
            if m.start()>=off: res.append((i,l,l[:m.start()]+m.group(1)+l[m.end():]))
        # one element of an append dropped
        for m in re.finditer(r" \+\+ (\[[^\[\]]*\]|\w+)",l):
            if m.start()>=off: res.append((i,l,l[:m.start()]+l[m.end():]))
    return src,ls,len(idx),res
DECL=re.compile(r"^(?:@\[[^\]]*\]\s*)?(?:private |protected |noncomputable )*(theorem|lemma|def|example|instance|abbrev)\b\s*(\S*)")
def encl(ls,line):
    for i in range(min(line,len(ls))-1,-1,-1):
        m=DECL.match(ls[i])
        if m: return m.group(2) if m.group(1)!="example" else "example:%d"%(i+1)
    return "?"
def failing(out):
    fails=[]
    for m in re.finditer(r"error: (Verif/\S+\.lean):(\d+):(\d+)",out):
        n=m.group(1)[6:-5]+"."+encl(open(S+"/"+m.group(1)).read().split("\n"),int(m.group(2)))
        if n not in fails: fails.append(n)
    return fails
done=set()
for g in glob.glob("/tmp/am/out.*.jsonl"):
    for l in open(g):
        r=json.loads(l); done.add((r["file"],r["line"],r["new"]))
files=sorted(glob.glob(V+"/lean/Verif/Model/*.lean"))
todo=[]
for f in files:
    src,ls,n,res=muts(f)
    rng=random.Random(f"{SEED}-{f}")
    rng.shuffle(res)
    for x in res[:max(4,n//PER)]: todo.append((f,)+x)
random.Random(SEED).shuffle(todo)
todo=todo[W::N]
print(len(todo),flush=True)
if len(sys.argv)>5: sys.exit()
def lake(*a):
    p=subprocess.run(["nice","lake","build",*a],cwd=S,capture_output=True,text=True); return p.returncode,p.stdout+p.stderr
for k,(f,i,old,new) in enumerate(todo):
    rel=f[len(V+"/lean/"):]; p=S+"/"+rel
    if (rel,i+1,new.strip()) in done: continue
    src=open(f).read()
    ls=src.split("\n"); 
    if ls[i]!=old: continue
    ls2=ls[:]; ls2[i]=new
    open(p,"w").write("\n".join(ls2))
    t=time.time()
    mod=rel[:-5].replace("/",".")
    rc,out=lake(mod)
    if rc!=0:
        open(p,"w").write(src); continue
    direct=mod.replace(".Model.",".Props.")
    rc=0
    if os.path.exists(S+"/"+direct.replace(".","/")+".lean"):
        rc,out=lake(direct)
    if rc==0 or all(".example:" in x for x in failing(out)): rc,out=lake()
    open(p,"w").write(src)
    fails=failing(out)
    v="SURVIVED" if rc==0 else "killed"
    if rc!=0 and all(".example:" in x for x in fails): v="EXAMPLES"
    rec={"v":v,"file":rel,"def":encl(ls,i+1),"line":i+1,"old":old.strip(),"new":new.strip(),"fails":fails[:6],"t":round(time.time()-t)}
    open(f"/tmp/am/out.{W}.jsonl","a").write(json.dumps(rec)+"\n")
