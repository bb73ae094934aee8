#!/usr/bin/env python3
"""Seeded-bug runner.  tools/mutate.py mutants/<file>.py : for each mutant, edit one model definition in a
scratch copy (/tmp/scratch/lean), rebuild, record which theorems fail, append to seeded/LOG.jsonl.
A mutant is (id, model file without dir, definition, old, new, what the bug is, claim it breaks, headline theorems)."""
import sys, os, re, json, subprocess, shutil, runpy, time
V = "/verif"; S = "/tmp/scratch/lean"
def sync():
    os.makedirs("/tmp/scratch", exist_ok=True)
    subprocess.run(["rsync","-a","--delete",V+"/lean/",S+"/"]) if shutil.which("rsync") else \
        (shutil.rmtree(S, ignore_errors=True), shutil.copytree(V+"/lean", S, symlinks=True))
DECL = re.compile(r"^(?:@\[[^\]]*\]\s*)?(?:private |protected |noncomputable )*(theorem|lemma|def|example|instance|abbrev)\b\s*(\S*)")
def encl(path, line):
    ls = open(path).read().split("\n"); ns = []
    name = None
    for i in range(min(line, len(ls))-1, -1, -1):
        m = DECL.match(ls[i])
        if m: name = m.group(2) if m.group(1) != "example" else "example:%d" % (i+1); break
    return name or "?"
def build():
    t = time.time()
    p = subprocess.run(["lake","build"], cwd=S, capture_output=True, text=True)
    out = p.stdout + p.stderr
    fails = []
    for m in re.finditer(r"error: (Verif/\S+\.lean):(\d+):(\d+)", out):
        n = m.group(1)[6:-5] + "." + encl(S+"/"+m.group(1), int(m.group(2)))
        if n not in fails: fails.append(n)
    mods = sorted(set(re.findall(r"^- (Verif\S*)", out, re.M)))
    return p.returncode, fails, mods, time.time()-t
def main():
    g = runpy.run_path(sys.argv[1]); only = set(sys.argv[2:])
    sync()
    log = V+"/seeded/LOG.jsonl"
    done = set()
    if os.path.exists(log):
        for l in open(log):
            if l.strip(): done.add(json.loads(l).get("id"))
    for (mid, f, d, old, new, bug, claim, heads) in g["M"]:
        if only and mid not in only: continue
        if not only and mid in done: continue
        p = S+"/Verif/"+f+".lean"
        src = open(p).read()
        if src.count(old) != 1:
            print("SKIP", mid, "occurrences:", src.count(old)); continue
        open(p,"w").write(src.replace(old,new))
        rc, fails, mods, dt = build()
        open(p,"w").write(src)
        defbroken = any(x.startswith(f+".") for x in fails)
        verdict = "SURVIVED" if rc == 0 else ("MODEL BROKEN" if defbroken else "killed")
        print(f"{mid}: {verdict} {dt:.0f}s {fails[:8]}", flush=True)
        if verdict == "MODEL BROKEN": continue
        rec = {"id": mid, "definition": f"{f}.lean: {d}", "edit": f"{bug}: `{old.strip()}` -> `{new.strip()}`",
               "claim_broken": claim, "theorems_failed": fails, "modules_failed": mods,
               "theorems_tightened": [], "outcome": verdict}
        if verdict == "SURVIVED": print("   !!!", claim)
        open(log,"a").write(json.dumps(rec)+"\n")
main()
