#!/usr/bin/env python3
"""Test theorems against wrong programs made mechanically.

usage: mutate.py <Component> [--file Model] [--sample N] [--jobs N] [--seed N] [--def NAME]

Small edits (other operators, constants, conditions, branches, dropped statements) of the definitions in
Verif/<Component>/<File>.lean; each is joined with all modules of the component in a scratch file outside /verif, examples left
out, and checked with Lean until the first error. An edit that gives no error survives: it is printed, to be looked at. It may
not change the meaning, it may concern cases outside all preconditions, or a theorem is too weak."""
import os, re, signal, sys, subprocess, pathlib, random, time, concurrent.futures as cf
root = pathlib.Path(__file__).resolve().parent.parent
lean = root / "lean"
def opt(name, default):
    return sys.argv[sys.argv.index(name) + 1] if name in sys.argv else default
comp = sys.argv[1]
fname = opt("--file", "Model")
sample, jobs, rseed, only = int(opt("--sample", "40")), int(opt("--jobs", "2")), int(opt("--seed", "1")), opt("--def", None)
files = {f"Verif.{comp}.{p.stem}": p.read_text() for p in (lean / "Verif" / comp).glob("*.lean")}
target = f"Verif.{comp}.{fname}"
order, seen = [], set()
def visit(m):
    if m in seen: return
    seen.add(m)
    for k in re.findall(r"^import (\S+)", files[m], re.M):
        if k in files: visit(k)
    order.append(m)
for m in sorted(files): visit(m)
def reaches(m):
    return m == target or any(reaches(k) for k in re.findall(r"^import (\S+)", files[m], re.M) if k in files)
order = [m for m in order if reaches(m) or any(m in re.findall(r"^import (\S+)", files[x], re.M) for x in order)]
before = order[:order.index(target)]
# modules that come before the target and do not depend on it are imported as they are
keep = [m for m in order if reaches(m)]

def strip_examples(text):
    out, skip = [], False
    text = re.sub(r"^/--(?:(?!-/).)*-/\n(?=example)", "", text, flags=re.M | re.S)
    for line in text.splitlines():
        if line.startswith("example"): skip = True
        elif skip and (line == "" or re.match(r"(theorem|def|/--|end|namespace|section|noncomputable|@\[|private|instance|structure|inductive|variable)", line)): skip = False
        if not skip: out.append(line)
    return out

def join(text):
    imports, body = [], []
    for m in keep:
        for line in strip_examples(text if m == target else files[m]):
            if line.startswith("import "):
                if line.split()[1] not in keep and line not in imports: imports.append(line)
            else: body.append(line)
    return "\n".join(imports + body) + "\n"

SUBST = [(" + 1", ""), ("+1", ""), (" - 1", ""), ("-1", ""), (" + ", " - "), (" - ", " + "), (" < ", " ≤ "), (" ≤ ", " < "), (" > ", " ≥ "), (" ≥ ", " > "),
         (" = ", " ≠ "), (" ≠ ", " = "), (" == ", " != "), (" != ", " == "), ("&&", "||"), ("||", "&&"), (" ∧ ", " ∨ "), (" ∨ ", " ∧ "),
         ("true", "false"), ("false", "true"), ("!", ""), ("¬ ", ""), (" 0", " 1"), (" 1", " 2"), ("min ", "max "), ("max ", "min "),
         (".take ", ".drop "), (".drop ", ".take "), (" * ", " + "), (" / ", " * "), (" % ", " / "), ("(i", "(j"), (" i ", " j "), (" j ", " i "), (" a ", " b "), (" b ", " a "),
         ("some ", "none -- "), (".fst", ".snd"), (".1", ".2"), (".2", ".1")]
def mutants(text):
    lines = text.split("\n")
    cur, inc, res = None, False, []
    for n, line in enumerate(lines):
        if inc:
            if "-/" in line: inc = False
            continue
        if line.lstrip().startswith("/-"):
            if "-/" not in line: inc = True
            continue
        m = re.match(r"(?:@\[.*\] )?(?:noncomputable )?(?:private )?(def|theorem|structure|inductive|instance|abbrev|variable|namespace|section|end|open|lemma)\b\s*(\S*)", line)
        if m: cur = m.group(2) if m.group(1) == "def" else None
        if cur is None or (only and cur != only): continue
        start = 0
        if m:
            k = line.find(":=")
            if k < 0: continue
            start = k + 2
        head, code = line[:start], line[start:]
        for a, b in SUBST:
            p = code.find(a)
            while p >= 0:
                if not (a in (" - ", ) and False):
                    new = head + code[:p] + b + code[p + len(a):]
                    res.append((cur, n, line, new))
                p = code.find(a, p + len(a))
        k = re.search(r"\bif (.*?) then\b", code)
        if k:
            c = k.group(1)
            if ":" in c.split(" ")[:2]:
                pass
            else: res.append((cur, n, line, head + code[:k.start(1)] + "¬ (" + c + ")" + code[k.end(1):]))
        s = line.strip()
        if line.startswith("  ") and not s.startswith(("|", "let", "if", "else", "match", "pure", "return", "termination", "decreasing")) and n + 1 < len(lines) and lines[n + 1].startswith("  ") \
                and len(lines[n + 1]) - len(lines[n + 1].lstrip()) == len(line) - len(line.lstrip()):
            res.append((cur, n, line, ""))
    uniq, got = [], set()
    for r in res:
        if (r[1], r[3]) not in got and r[3] != r[2]: got.add((r[1], r[3])); uniq.append(r)
    return uniq

src = files[target]
ms = mutants(src)
random.Random(rseed).shuffle(ms)
total = len(ms)
ms = ms[:sample]
work = pathlib.Path("/tmp/mut"); work.mkdir(exist_ok=True)
def run(t):
    k, (cur, n, old, new) = t
    lines = src.split("\n"); lines[n] = new
    f = work / f"{comp}_{fname}_{k}.lean"; f.write_text(join("\n".join(lines)))
    t0 = time.time()
    p = subprocess.Popen(["lake", "env", "lean", str(f)], cwd=lean, stdout=subprocess.PIPE, stderr=subprocess.STDOUT, text=True,
                         start_new_session=True)
    err = None
    for line in p.stdout:
        if ": error" in line or line.startswith("error"):
            err = line.strip(); os.killpg(p.pid, signal.SIGKILL); break
    p.wait()
    f.unlink()
    if err is None: return "SURVIVES", time.time() - t0, ""
    m = re.search(r":(\d+):\d+: error", err)
    return "killed", time.time() - t0, err.split("error")[-1][:90]
if "--base" in sys.argv: print(run((0, (None, 0, src.split("\n")[0], src.split("\n")[0])))); sys.exit()
print(f"{comp}.{fname}: {total} edits, {len(ms)} tried", flush=True)
killed = 0
with cf.ThreadPoolExecutor(jobs) as ex:
    for (cur, n, old, new), r in zip(ms, ex.map(run, enumerate(ms))):
        if r[0] == "killed": killed += 1
        else: print(f"SURVIVES {cur} line {n+1} ({r[1]:.0f}s)\n  - {old.strip()}\n  + {new.strip()}", flush=True)
print(f"{comp}.{fname}: killed {killed} of {len(ms)}", flush=True)
