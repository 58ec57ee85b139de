#!/usr/bin/env python3
"""Seeded-bug runs.  Reads a JSON list of mutants
   {"file", "def", "old", "new", "edit", "claim", "tightened"}
from the files given, applies each one to a scratch copy of lean/, builds, and appends one line per
mutant to seeded/LOG.jsonl: the theorems whose proofs fail, and the property theorems that can no
longer be built because they rest on those."""
import json, os, re, subprocess, sys, shutil
SRC = "/verif/lean"; DST = "/tmp/mut/lean"
def theorems(path):
    out = []
    ns = []
    for i, l in enumerate(open(path), 1):
        m = re.match(r"\s*(?:@\[[^\]]*\]\s*)?(?:private )?(theorem|def|example|instance|abbrev|structure|inductive)\b\s*([^\s:({\[]*)", l)
        if m: out.append((i, m.group(2) or m.group(1)))
    return out
def enclosing(path, line):
    name = "?"
    for i, n in theorems(path):
        if i <= line: name = n
    return name
def imports(mod):
    p = os.path.join(DST, mod.replace(".", "/") + ".lean")
    return [l.split()[1] for l in open(p) if l.startswith("import Verif")]
def closure():
    mods = [l.split()[1] for l in open(os.path.join(DST, "Verif.lean")) if l.startswith("import")]
    dep = {}
    def rec(m):
        if m in dep: return dep[m]
        s = set()
        for i in imports(m): s.add(i); s |= rec(i)
        dep[m] = s
        return s
    for m in mods: rec(m)
    return mods, dep
def strip_examples(changed):
    """Removes the examples from the property files of the scratch copy that rest on the changed module: evaluating them can exhaust the
    memory once the model is wrong, before the theorems behind them are reached."""
    dep = closure()[1]
    for d, _, fs in os.walk(os.path.join(DST, "Verif/Props")):
        for f in fs:
            p = os.path.join(d, f)
            if changed not in dep.get(os.path.relpath(p, DST)[:-5].replace("/", "."), ()): continue
            out, skip = [], False
            for l in open(p):
                if re.match(r"example\b", l):
                    while out and out[-1].strip() and not re.match(r"/--", out[-1]): out.pop()
                    if out and re.match(r"/--", out[-1]): out.pop()
                    skip = True
                elif re.match(r"(theorem|def|abbrev|instance|private|@\[|/-|end\b|section\b|namespace\b|open\b|variable\b|set_option\b|inductive|structure|deriving)", l):
                    skip = False
                if not skip: out.append(l)
            open(p, "w").writelines(out)
def main():
    os.makedirs(os.path.dirname(DST), exist_ok=True)
    for f in sys.argv[1:]:
        for mu in json.load(open(f)):
            subprocess.run(["rsync", "-a", "--delete", SRC + "/", DST + "/"], check=False) if shutil.which("rsync") else \
                (shutil.rmtree(DST, ignore_errors=True), subprocess.run(["cp", "-a", SRC, DST], check=True))
            p = os.path.join(DST, mu["file"])
            s = open(p).read()
            n = s.count(mu["old"])
            if n != 1:
                print("SKIP", mu["def"], "old text found", n, "times"); continue
            open(p, "w").write(s.replace(mu["old"], mu["new"]))
            strip_examples(mu["file"][:-5].replace("/", "."))
            r = subprocess.run(["lake", "build"], cwd=DST, capture_output=True, text=True, timeout=3000, errors="replace")
            txt = r.stdout + r.stderr
            failed = []
            badmods = set()
            for m in re.finditer(r"error: (Verif/[\w/]+\.lean):(\d+):", txt):
                path = os.path.join(DST, m.group(1))
                badmods.add(m.group(1)[:-5].replace("/", "."))
                t = enclosing(path, int(m.group(2)))
                if t not in failed: failed.append(t)
            mods, dep = closure()
            blocked = []
            for m in mods:
                if ".Props." in m and (dep[m] & badmods):
                    blocked += [n for _, n in theorems(os.path.join(DST, m.replace(".", "/") + ".lean")) if re.match(r"C\d\d", n)]
            rec = {"definition": mu["def"], "edit": mu["edit"], "claim": mu["claim"], "theorems_failed": failed,
                   "property_theorems_resting_on_them": blocked, "tightened": mu.get("tightened", "")}
            if not failed:
                rec["result"] = "SURVIVED" if "error" not in txt else "build error: " + txt[-300:]
            with open("/verif/seeded/LOG.jsonl", "a") as o: o.write(json.dumps(rec) + "\n")
            print(mu["def"], "|", mu["edit"], "=>", failed or rec["result"], flush=True)
main()
