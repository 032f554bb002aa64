#!/usr/bin/env python3
"""Appends to DESIGN.md the axioms each property theorem depends on (needs a finished build)."""
import json, os, re, subprocess
root = os.path.dirname(os.path.dirname(os.path.abspath(__file__)))
claims = json.load(open(root + "/MANIFEST.json"))["claims"]
mods = sorted(os.path.splitext(f)[0] for f in os.listdir(root + "/lean/Verif/Props"))
names = [t for c in claims for t in c["theorems"]]
src = "".join(f"import Verif.Props.{m}\n" for m in mods) + "".join(f"#print axioms {t}\n" for t in names)
open("/tmp/axioms.lean", "w").write(src)
out = subprocess.run(["lake", "env", "lean", "/tmp/axioms.lean"], cwd=root + "/lean",
                     capture_output=True, text=True).stdout
out = re.sub(r"\n\s+", " ", out)
ax = {}
for l in out.splitlines():
    m = re.match(r"'(\S+)' depends on axioms: \[(.*)\]", l)
    if m: ax[m.group(1)] = m.group(2)
    m = re.match(r"'(\S+)' does not depend on any axioms", l)
    if m: ax[m.group(1)] = "none"
assert set(ax) == set(names), set(names) - set(ax)
groups = {}
for t in names: groups.setdefault(ax[t], []).append(t.replace("Verif.Props.", ""))
p = root + "/DESIGN.md"
s = open(p).read().split("## Axioms per theorem")[0]
s += "## Axioms per theorem\n\nAll names are in the namespace `Verif.Props`.\n"
for g in sorted(groups): s += f"\n* **{g}**: " + ", ".join(groups[g]) + "\n"
open(p, "w").write(s)
print({g: len(l) for g, l in groups.items()})
