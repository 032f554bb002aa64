#!/usr/bin/env python3
"""Regenerates MANIFEST.json and lean/Verif.lean from the theorem names in lean/Verif/Props."""
import glob, json, os, re
root = os.path.dirname(os.path.dirname(os.path.abspath(__file__)))
notes = json.load(open(os.path.join(root, "tools", "notes.json")))
th = {}
for f in sorted(glob.glob(root + "/lean/Verif/Props/*.lean")):
    src = open(f).read()
    for m in re.finditer(r"^(?:protected )?theorem (C\d\d\w*)", src, re.M):
        th.setdefault(m.group(1)[:3], []).append("Verif.Props." + m.group(1))
claims = []
for l in open(root + "/properties.jsonl"):
    pid = json.loads(l)["id"]
    n = notes.get(pid, {})
    if pid in th:
        claims.append({"property": pid, "status": n.get("status", "proved"),
                       "theorems": th[pid], "note": n.get("note", "")})
    elif n.get("status") == "not_applicable":
        claims.append({"property": pid, "status": "not_applicable", "theorems": [], "note": n["note"]})
json.dump({"claims": claims}, open(root + "/MANIFEST.json", "w"), indent=1)
mods = sorted(os.path.relpath(f, root + "/lean")[:-5].replace("/", ".")
              for f in glob.glob(root + "/lean/Verif/**/*.lean", recursive=True))
open(root + "/lean/Verif.lean", "w").write("".join(f"import {m}\n" for m in mods))
print(len(claims), "claims,", sum(len(c["theorems"]) for c in claims), "theorems")
