#!/usr/bin/env python3
"""Systematic seeded faults: small textual mutations of the definitions of the model (boundaries, comparisons,
connectives, swapped branches, dropped parts).  Each is built in a scratch copy, only until the first error.
Survivors are printed and written to /tmp/auto/survivors.jsonl for inspection by hand: they are either equivalent
programs or point at a weak theorem.
usage: automutate.py SEED MINUTES [file...]"""
import json, os, random, re, shutil, signal, subprocess, sys, time
SRC = os.environ.get("MUT_SRC", "/verif/lean"); DST = "/tmp/auto/lean"
OPS = [
 (r"(?<![\w.])(\d+)(?![\w.])", lambda m: [str(int(m.group(1)) + 1)] + ([str(int(m.group(1)) - 1)] if int(m.group(1)) > 0 else [])),
 (r" < ", lambda m: [" ≤ "]), (r" ≤ ", lambda m: [" < "]), (r" > ", lambda m: [" ≥ "]), (r" ≥ ", lambda m: [" > "]),
 (r" = (?!>)", lambda m: [" ≠ "]), (r" ≠ ", lambda m: [" = "]), (r" == ", lambda m: [" != "]), (r" != ", lambda m: [" == "]),
 (r" && ", lambda m: [" || "]), (r" \|\| ", lambda m: [" && "]), (r" ∧ ", lambda m: [" ∨ "]), (r" ∨ ", lambda m: [" ∧ "]),
 (r"\btrue\b", lambda m: ["false"]), (r"\bfalse\b", lambda m: ["true"]),
 (r" ([+]) ", lambda m: [" - "]), (r" - ", lambda m: [" + "]),
 (r" \+\+ ([\w.]+)(?= |$|\))", lambda m: [""]),
 (r"\bsome ([\w.]+)\b", lambda m: ["none"]),
 (r'ascii "([^"]+)"', lambda m: ['ascii "' + m.group(1)[:-1] + 'X"', 'ascii "' + m.group(1)[:-2] + '"'] if "\\" not in m.group(1)[-2:] else ['ascii "X' + m.group(1) + '"']),
 (r"\.drop\b", lambda m: [".take"]), (r"\.take\b", lambda m: [".drop"]),
 (r"\bmin\b", lambda m: ["max"]), (r"\.insert\b", lambda m: [".append"]), (r"\.append\b", lambda m: [".insert"]),
 (r"if (.+?) then", lambda m: ["if ¬ (" + m.group(1) + ") then"]),
]
def drop_update(m):
    """Leaves out one field of a record update."""
    fs = [x for x in re.split(r", (?=\w+ := )", m.group(2))]
    if len(fs) == 1: return [m.group(1)]
    return ["{ " + m.group(1) + " with " + ", ".join(fs[:i] + fs[i + 1:]) + " }" for i in range(len(fs))]
def other_arm(m):
    """Exchanges the results of two arms of a match, or gives one the result of the other."""
    return [f"{m.group(1)}{m.group(4)}{m.group(3)}{m.group(2)}", f"{m.group(1)}{m.group(2)}{m.group(3)}{m.group(2)}", f"{m.group(1)}{m.group(4)}{m.group(3)}{m.group(4)}"]
MORE = [
 (r"\{ ([\w.]+) with ([^{}]*?) \}", drop_update),
 (r"(\| [^\n|]*? => )([^\n|]+)(\n *\| [^\n|]*? => )([^\n|]+)(?=\n)", other_arm),
 (r"\.pending\b", lambda m: [".data []"]), (r"\.data \[\]", lambda m: [".pending"]), (r"\.err (\w+)", lambda m: [".pending", ".data []"]),
 (r"\.err \(([^()]*)\)", lambda m: [".pending", ".data []"]),
 (r"\bnone\b", lambda m: ["some 0", "some []"]),
 (r"(?<![\w.])([a-z]\w*) ([a-z]\w*)(?=[ \n)⟩,])", lambda m: [m.group(2) + " " + m.group(1)] if m.group(1) not in ("if", "then", "else", "fun", "let", "match", "some", "by", "do") and m.group(2) not in ("with", "then", "else", "do", "if", "match", "fun") else []),
 (r"(?<![\w.])(\w+)\.(\w+) ([a-z]\w*) ([a-z]\w*)(?=[ \n)⟩,])", lambda m: [f"{m.group(1)}.{m.group(2)} {m.group(4)} {m.group(3)}"]),
 (r" \(([\w.]+) \+ ([\w.]+)\)", lambda m: [" " + m.group(1), " " + m.group(2)]),
 (r" \+\+ \(([^()]*)\)", lambda m: [""]), (r" \+\+ \[([^\[\]]*)\]", lambda m: [""]),
 (r"\[([^\[\],]+), ([^\[\]]+)\] \+\+ ", lambda m: [""]),
 (r"\.map\b", lambda m: [".filterMap"]), (r"\.head\?", lambda m: [".getLast?"]), (r"\.getLast\?", lambda m: [".head?"]),
 (r"\.any\b", lambda m: [".all"]), (r"\.all\b", lambda m: [".any"]), (r"\.takeWhile\b", lambda m: [".dropWhile"]), (r"\.dropWhile\b", lambda m: [".takeWhile"]),
 (r"\blower (\w+)", lambda m: [m.group(1)]), (r"\(lower (\w+)\)", lambda m: [m.group(1)]),
]
if os.environ.get("MUT_MORE"): OPS = MORE
def blocks(text):
    """(start, end, name) of the definitions."""
    out = []
    for m in re.finditer(r"^(?:@\[[^\]]*\] )?(?:protected )?(?:def|instance) (\S+)(.*?)(?=^\S|\Z)", text, re.M | re.S):
        out.append((m.start(), m.end(), m.group(1)))
    return out
def mutants(path):
    text = open(path).read()
    for a, b, name in blocks(text):
        body = text[a:b]
        i = body.find(":=")
        j = body.find("\n  |")
        k = min([x for x in (i, j) if x >= 0] or [0])
        for pat, f in OPS:
            for m in re.finditer(pat, body[k:]):
                if "--" in body[k:][:m.start()].split("\n")[-1]: continue
                for new in f(m):
                    s, e = a + k + m.start(), a + k + m.end()
                    yield name, text[:s] + new + text[e:], text[s:e], new, text.count("\n", 0, s) + 1
def sync():
    """Brings the scratch copy, with its compiled files, back to the original."""
    keep = set()
    for d, _, fs in os.walk(SRC):
        e = DST + d[len(SRC):]
        os.makedirs(e, exist_ok=True)
        for f in fs:
            a, b = os.path.join(d, f), os.path.join(e, f)
            keep.add(b)
            x = os.stat(a)
            if os.path.exists(b):
                y = os.stat(b)
                if x.st_size == y.st_size and x.st_mtime_ns == y.st_mtime_ns: continue
                os.remove(b)
            shutil.copy2(a, b)
    for d, _, fs in os.walk(DST):
        for f in fs:
            if os.path.join(d, f) not in keep: os.remove(os.path.join(d, f))
def build():
    p = subprocess.Popen(["lake", "build"], cwd=DST, stdout=subprocess.PIPE, stderr=subprocess.STDOUT, text=True, errors="replace", start_new_session=True)
    err = None
    t0 = time.time()
    for l in p.stdout:
        m = re.match(r"error: (Verif/[\w/]+\.lean:\d+)", l)
        if m: err = m.group(1); break
        if l.startswith("error"): err = l.strip(); break
        if time.time() - t0 > 1500: err = "timeout"; break
    if err:
        try: os.killpg(p.pid, signal.SIGKILL)
        except ProcessLookupError: pass
    p.wait()
    return err
def main():
    seed, minutes, files = int(sys.argv[1]), float(sys.argv[2]), sys.argv[3:]
    if not files:
        files = sorted("Verif/Model/" + f for f in os.listdir(SRC + "/Verif/Model"))
    rnd = random.Random(seed)
    os.makedirs("/tmp/auto", exist_ok=True)
    todo = []
    for f in files:
        per = {}
        for mu in mutants(os.path.join(SRC, f)): per.setdefault(mu[0], []).append(mu)
        for name, l in per.items():
            rnd.shuffle(l)
            for n, mu in enumerate(l): todo.append((n, rnd.random(), f, mu))
    todo.sort(key=lambda x: x[:2])
    print(len(todo), "mutants", flush=True)
    t0 = time.time()
    for n, _, f, (name, text, old, new, line) in todo:
        if time.time() - t0 > minutes * 60: break
        sync()
        open(os.path.join(DST, f), "w").write(text)
        t1 = time.time()
        err = build()
        rec = {"round": n, "file": f, "line": line, "def": name, "old": old, "new": new, "killed_at": err, "secs": round(time.time() - t1)}
        with open("/tmp/auto/log.jsonl", "a") as o: o.write(json.dumps(rec) + "\n")
        if not err:
            with open("/tmp/auto/survivors.jsonl", "a") as o: o.write(json.dumps(rec) + "\n")
            print("SURVIVED", f, line, name, repr(old), "->", repr(new), flush=True)
if __name__ == "__main__": main()
