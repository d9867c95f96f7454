#!/usr/bin/env python3
"""Write AXIOMS.md: the axioms of every theorem in MANIFEST.json. Run after `lake build`."""
import json, os, re, subprocess, collections

root = os.path.dirname(os.path.dirname(os.path.abspath(__file__)))
names = [t for c in json.load(open(f"{root}/MANIFEST.json"))["claims"] for t in c["theorems"]]
src = "import Verif\n" + "".join(f"#print axioms {n}\n" for n in names)
out = subprocess.run(["lake", "env", "lean", "--stdin"], input=src, text=True, capture_output=True, cwd=f"{root}/lean").stdout
by = collections.defaultdict(list)
for m in re.finditer(r"'([^']+)' (does not depend on any axioms|depends on axioms: \[([^\]]*)\])", out):
    by[", ".join(sorted(a.strip() for a in (m.group(3) or "").split(",") if a.strip())) or "none"].append(m.group(1))
assert sum(map(len, by.values())) == len(names), out[-2000:]
with open(f"{root}/AXIOMS.md", "w") as f:
    f.write("# Axioms of the theorems in the manifest (`#print axioms`)\n")
    for k in sorted(by):
        f.write(f"\n## {k}\n\n" + "".join(f"* `{n}`\n" for n in sorted(by[k])))
