#!/usr/bin/env python3
"""Seeded-bug experiments. usage: mutate.py FILE.json ; each entry has keys
file, definition, old, new, edit, breaks. Works in /tmp/scratch (a copy of lean/), appends to seeded/LOG.jsonl."""
import json, os, re, shutil, subprocess, sys, time
root = os.path.dirname(os.path.dirname(os.path.abspath(__file__)))
S = os.environ.get("SCRATCH", "/tmp/scratch")
LEAN = os.environ.get("SRC", root + "/lean")
def sync():
    subprocess.run(["rsync", "-a", "--delete", "--exclude", ".lake", LEAN + "/", S + "/"], check=True) if shutil.which("rsync") else None
    if not shutil.which("rsync"):
        os.makedirs(S, exist_ok=True)
        for d, _, fs in os.walk(LEAN):
            if ".lake" in d: continue
            for f in fs:
                src = os.path.join(d, f); dst = os.path.join(S, os.path.relpath(src, LEAN))
                os.makedirs(os.path.dirname(dst), exist_ok=True)
                if not os.path.exists(dst) or open(src,'rb').read() != open(dst,'rb').read():
                    shutil.copy2(src, dst)
def decl_at(path, line):
    ls = open(path).read().split("\n")[:line]
    for l in reversed(ls):
        m = re.match(r"(?:@\[[^\]]*\]\s*)?(?:private |protected )?(theorem|def|example|instance|lemma)\s*([\w.'₁₂?]*)", l)
        if m: return (m.group(2) or m.group(1))
    return "?"
if not os.path.exists(S + "/.lake"):
    os.makedirs(S, exist_ok=True)
    subprocess.run(["cp", "-r", LEAN + "/.lake", S + "/.lake"])
dry = "--dry" in sys.argv
def build():
    """The output of `lake build`; with FAST set, only until 20 seconds after the first error."""
    f = open(S + ".out", "w+")
    pr = subprocess.Popen(["lake", "build"], cwd=S, stdout=f, stderr=f, start_new_session=True)
    seen = None
    while pr.poll() is None:
        time.sleep(1)
        if os.environ.get("FAST"):
            if seen is None and "error: Verif/" in open(S + ".out").read(): seen = time.time()
            if seen and time.time() - seen > 20:
                os.killpg(pr.pid, 9); pr.wait()
    return open(S + ".out").read()
for mu in json.load(open(sys.argv[1])):
    sync()
    p = os.path.join(S, mu["file"]); src = open(p).read()
    if src.count(mu["old"]) < 1: print("NOT FOUND", mu["definition"], mu["edit"]); continue
    open(p, "w").write(src.replace(mu["old"], mu["new"], mu.get("count", 1)))
    for a in mu.get("also", []):
        q = os.path.join(S, a["file"]); t = open(q).read()
        if t.count(a["old"]) < 1: print("ALSO NOT FOUND", a["old"])
        open(q, "w").write(t.replace(a["old"], a["new"], a.get("count", 1)))
    out = build()
    failed = []
    for m in re.finditer(r"error: (Verif/[\w/]+\.lean):(\d+):", out):
        d = decl_at(os.path.join(S, m.group(1)), int(m.group(2)))
        n = m.group(1)[6:-5].replace("/", ".") + ":" + d
        if n not in failed: failed.append(n)
    # property modules which no longer build because of those failures
    down = sorted(set(re.findall(r"- (Verif\.[\w.]+)", out)))
    print(("KILLED " if failed else "SURVIVED ") + mu["definition"] + " | " + mu["edit"], failed[:6], flush=True)
    if not dry:
        e = {"definition": mu["definition"], "edit": mu["edit"], "claim_broken": mu["breaks"],
             "theorems_failed": failed, "theorems_tightened": mu.get("tightened", [])}
        open(root + "/seeded/LOG.jsonl", "a").write(json.dumps(e, ensure_ascii=False) + "\n")
sync()
