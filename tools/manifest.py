#!/usr/bin/env python3
"""Regenerate MANIFEST.json from the theorem names in lean/Verif and tools/claims.json.

A theorem named Cxx_* belongs to property Cxx.  tools/claims.json gives status and note per property; a property
without any theorem is left out (not yet modelled)."""
import json, re, pathlib
root = pathlib.Path(__file__).resolve().parent.parent
found = {}
for f in sorted((root / "lean" / "Verif").rglob("*.lean")):
    ns = []
    for line in f.read_text().splitlines():
        m = re.match(r"namespace (\S+)", line)
        if m: ns.append(m.group(1))
        m = re.match(r"section\b", line)
        if m: ns.append(None)
        m = re.match(r"end\b", line)
        if m and ns: ns.pop()
        m = re.match(r"(?:@\[.*\] )?(?:private )?theorem ((C\d\d)_\S+)", line)
        if m:
            full = ".".join([n for n in ns if n] + [m.group(1)])
            found.setdefault(m.group(2), []).append(full)
claims = json.loads((root / "tools" / "claims.json").read_text())
props = [json.loads(l)["id"] for l in (root / "properties.jsonl").read_text().splitlines() if l.strip()]
out = []
for p in props:
    c = claims.get(p)
    th = found.get(p, [])
    if not c:
        if th: print("no claim entry for", p)
        continue
    if c["status"] != "not_applicable" and not th:
        print("no theorems for", p); continue
    out.append({"property": p, "status": c["status"], "theorems": th, "note": c["note"]})
for p in found:
    if p not in props: print("unknown property", p)
(root / "MANIFEST.json").write_text(json.dumps({"claims": out}, indent=1, ensure_ascii=False) + "\n")
print(len(out), "claims,", sum(len(c["theorems"]) for c in out), "theorems")
missing = [p for p in props if p not in {c["property"] for c in out}]
print("missing:", missing)
