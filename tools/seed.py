#!/usr/bin/env python3
"""Test theorems against wrong programs.

usage: seed.py seeded/<Component>.json [--log] [--only N,N]

The JSON file lists the modules of a component (in dependency order) and edits of its model. For each edit the modules
are joined into one scratch file outside /verif, the edit applied, and the file checked with Lean; a property theorem
counts as failed if it no longer exists or depends on `sorryAx` (the proof of it, or of a lemma it uses, broke).
"also" lists further edits (to a specification that is wrong in the same way).
With --log the results are appended to seeded/LOG.jsonl."""
import json, re, sys, subprocess, pathlib, concurrent.futures as cf
root = pathlib.Path(__file__).resolve().parent.parent
lean = root / "lean"
cfg = json.loads(pathlib.Path(sys.argv[1]).read_text())
only = None
if "--only" in sys.argv:
    only = {int(x) for x in sys.argv[sys.argv.index("--only") + 1].split(",")}
mods = cfg["modules"]

def join(edit):
    if edit and edit["module"] not in mods: raise SystemExit(f"{edit['module']} is not listed")
    imports, body, names, lemmas = [], [], [], []
    for m in mods:
        text = (lean / (m.replace(".", "/") + ".lean")).read_text()
        if edit and m == edit["module"]:
            n = text.count(edit["old"])
            if n != edit.get("count", 1):
                raise SystemExit(f"edit {edit['definition']}: old text occurs {n} times")
            text = text.replace(edit["old"], edit["new"])
        for e in edit.get("also", []) if edit else []:
            if m == e["module"]:
                if text.count(e["old"]) != 1: raise SystemExit(f"edit {edit['definition']}: {e['old']} does not occur once")
                text = text.replace(e["old"], e["new"])
        ns = []
        for line in text.splitlines():
            if line.startswith("import "):
                if line.split()[1] not in mods and line not in imports: imports.append(line)
                continue
            body.append(line)
            k = re.match(r"namespace (\S+)", line)
            if k: ns.append(k.group(1))
            if re.match(r"(noncomputable )?section\b", line): ns.append(None)
            if re.match(r"end\b", line) and ns: ns.pop()
            k = re.match(r"(?:@\[.*\] )?(?:private )?theorem (\S+)", line)
            if k:
                full = ".".join([x for x in ns if x] + [k.group(1)])
                (names if re.search(r"(^|\.)C\d\d_", full) else lemmas).append(full)
    return "\n".join(imports + body), names, lemmas

def run(idx, edit):
    text, names, lemmas = join(edit)
    text += "\n" + "\n".join(f"#print axioms {n}" for n in names + lemmas) + "\n"
    d = pathlib.Path("/tmp/seed"); d.mkdir(exist_ok=True)
    f = d / f"{cfg['component']}_{idx}.lean"
    f.write_text(text)
    try:
        p = subprocess.run(["lake", "env", "lean", str(f)], cwd=lean, capture_output=True, text=True, timeout=2400)
        out = p.stdout + p.stderr
    except subprocess.TimeoutExpired as e:
        out = (e.stdout or b"").decode() if isinstance(e.stdout, bytes) else (e.stdout or "")
    (d / f"{cfg['component']}_{idx}.out").write_text(out)
    if "(kernel)" in out: print(f"WARNING: seed {idx}: kernel error, the list of failed theorems is not complete")
    ok = set()
    for m in re.finditer(r"'(\S+)' depends on axioms: \[([^\]]*)\]", out):
        if "sorryAx" not in m.group(2): ok.add(m.group(1))
    for m in re.finditer(r"'(\S+)' does not depend on any axioms", out): ok.add(m.group(1))
    return [n for n in names if n not in ok], [n for n in lemmas if n not in ok]

seeds = [(i, s) for i, s in enumerate(cfg["seeds"]) if only is None or i in only]
base, _ = run("base", None)
if base: print("WARNING: fails without edit:", base)
with cf.ThreadPoolExecutor(cfg.get("jobs", 3)) as ex:
    res = list(ex.map(lambda t: (t, run(*t)), seeds))
for (i, s), (failed, lem) in res:
    print(f"{i} {s['definition']}: {s['edit']}\n    claim: {s['claim']}\n    failed: {[n.split('.')[-1] for n in failed] or 'NONE  <<<<<<<<<<'}")
    if "--log" in sys.argv:
        with open(root / "seeded" / "LOG.jsonl", "a") as f:
            f.write(json.dumps({"definition": s["definition"], "edit": s["edit"], "claim": s["claim"], "failed": failed,
                                "failed_lemmas": lem[:12], "tightened": s.get("tightened", [])}, ensure_ascii=False) + "\n")
