#!/usr/bin/env python3
"""Systematic search for edits of the model which no proof notices.

Generates small edits of the definitions under Verif/Model (a constant changed by one, a comparison made strict or not, a connective or a boolean replaced, a step or a
field update left out), elaborates the modules which depend on the edited file, in order, and stops at the first theorem whose proof fails.  Appends a line per edit to
seeded/AUTO.jsonl; edits which do not type-check are not recorded.  What survives is to be examined by hand.

usage: automut.py [-j N] [-s SEED] [-n PER_FILE] [file ...]      (files relative to Verif/Model, without .lean)
"""
import json, os, re, subprocess, sys, shutil, time, random
from concurrent.futures import ThreadPoolExecutor, FIRST_COMPLETED, wait
here = os.path.dirname(os.path.abspath(__file__))
ROOT = os.path.dirname(here)
LEAN = os.environ.get("MUT_LEAN", ROOT + "/lean")
M = os.environ.get("MUT_DIR", "/tmp/automut")
sys.path.insert(0, here)
src = open(here + "/mutate.py").read()
DRIVER = re.search(r"DRIVER = r'''(.*?)'''", src, re.S).group(1)
exec(re.search(r"def modules\(\):.*?(?=def main)", src, re.S).group(0))

def code_spans(txt):
    """offsets which are not in comments or strings"""
    ok = bytearray(b"\1") * len(txt)
    i = 0
    while i < len(txt):
        if txt.startswith("/-", i):
            d, j = 1, i + 2
            while d and j < len(txt):
                if txt.startswith("/-", j): d += 1; j += 2
                elif txt.startswith("-/", j): d -= 1; j += 2
                else: j += 1
            for k in range(i, j): ok[k] = 0
            i = j
        elif txt.startswith("--", i):
            j = txt.find("\n", i)
            for k in range(i, j): ok[k] = 0
            i = j
        elif txt.startswith("'\"'", i) or txt.startswith("'\\\"'", i): i += 3
        elif txt[i] == '"':
            j = i + 1
            while txt[j] != '"': j += 2 if txt[j] == "\\" else 1
            for k in range(i, j + 1): ok[k] = 2
            i = j + 1
        else: i += 1
    return ok

OPS = [(r"(?<![\w.#'])(0x[0-9a-f]+|\d+)(?![\w.#'])", "inc"), (r" ≤ ", " < "), (r" < ", " ≤ "), (r" ≥ ", " > "), (r" > ", " ≥ "), (r" && ", " || "), (r" \|\| ", " && "), (r" ∧ ", " ∨ "), (r" ∨ ", " ∧ "),
       (r"\btrue\b", "false"), (r"\bfalse\b", "true"), (r" \+ 1\b", ""), (r" - 1\b", ""), (r" ≠ ", " = "), (r" == ", " != "), (r"\.take\b", ".drop"), (r"(?<=with )(\w+ := [^,{}()]+), ", "drop"),
       (r", (\w+ := [^,{}()]+)(?= })", "drop"), (r"(?m)^ +Go\.chk [^\n]* <\|\n", "drop"), (r"(?m)^ +(?:sendEvent|modify|Go\.modify|countIn|discard|propagateError)[^\n]*\n", "drop"), (r" = (?=[^\n]* then)", " ≠ ")]

def edits(txt):
    ok = code_spans(txt)
    start = txt.find("namespace")
    r = []
    for pat, rep in OPS:
        for m in re.finditer(pat, txt):
            a, b = m.span()
            if a < start or not all(ok[k] == 1 for k in range(a, b)): continue
            if rep == "inc":
                g = m.group(1)
                new = hex(int(g, 16) + 1) if g.startswith("0x") else str(int(g) + 1)
            elif rep == "drop": new = ""
            else: new = rep
            r.append((a, b, new))
    k = start
    while k < len(txt):                  # a character more in a string
        if ok[k] == 2:
            j = k
            while j < len(txt) and ok[j] == 2: j += 1
            if txt[k:j].count('"') == 2: r.append((j - 1, j - 1, "~"))
            k = j
        else: k += 1
    return r

def main():
    args = sys.argv[1:]
    J, seed, per = 2, 1, 10
    while args[:1] and args[0] in ("-j", "-s", "-n"):
        v = int(args[1])
        if args[0] == "-j": J = v
        elif args[0] == "-s": seed = v
        else: per = v
        args = args[2:]
    os.makedirs(M, exist_ok=True)
    open(M + "/Drv.lean", "w").write(DRIVER)
    mods = modules()
    lp = subprocess.run(["lake", "env", "printenv", "LEAN_PATH"], cwd=LEAN, capture_output=True, text=True).stdout.strip()
    rest = ":".join(x for x in lp.split(":") if not x.startswith(LEAN))
    log = ROOT + "/seeded/AUTO.jsonl"
    files = args or sorted(f[:-5] for f in os.listdir(LEAN + "/Verif/Model") if f.endswith(".lean"))
    rnd = random.Random(seed)
    plan = []
    for f in files:
        txt = open(f"{LEAN}/Verif/Model/{f}.lean").read()
        es = edits(txt)
        rnd.shuffle(es)
        plan += [(f, e) for e in es[:per]]
    rnd.shuffle(plan)
    done = set()
    if os.path.exists(log): done = {(d["file"], d["line"], d["edit"]) for d in map(json.loads, open(log))}
    out = M + "/out"
    # depth of modules, to check those close to the model first
    for f, (a, b, new) in plan:
        p = f"{LEAN}/Verif/Model/{f}.lean"
        txt = open(p).read()
        line = txt.count("\n", 0, a) + 1
        ls, le = txt.rfind("\n", 0, a) + 1, txt.find("\n", b)
        old = txt[ls:le].strip()
        edited = txt[:a] + new + txt[b:]
        newl = edited[ls:le + len(new) - (b - a)].strip()
        key = (f, line, f"{old}  ->  {newl}")
        if key in done: continue
        done.add(key)
        t0 = time.time()
        shutil.rmtree(out, ignore_errors=True)
        shutil.copytree(LEAN + "/.lake/build/lib/lean", out, copy_function=os.link)
        ed = M + "/edited.lean"
        open(ed, "w").write(edited)
        root = "Verif.Model." + f
        dep = {root}
        ch = True
        while ch:
            ch = False
            for m, (_, im) in mods.items():
                if m not in dep and any(i in dep for i in im): dep.add(m); ch = True
        env = dict(os.environ, LEAN_PATH=out + ":" + rest)
        def job(m):
            q = ed if m == root else mods[m][0]
            o = out + "/" + m.replace(".", "/") + ".olean"
            if os.path.exists(o): os.remove(o)
            try:
                r = subprocess.run(["nice", "-n", "15", "lean", "--run", M + "/Drv.lean", q, m, o], env=env, cwd=M, capture_output=True, text=True, timeout=600)
                lines = r.stdout.split("\n")
            except subprocess.TimeoutExpired: lines = ["ERR 1: timeout"]
            es = [(decl_at(q, int(k.group(1))), k.group(2)) for k in (re.match(r"ERR (\d+): (.*)", l) for l in lines) if k]
            if not os.path.exists(o): es.append(("?", "no result"))
            return m, es
        pend, run, finished, hits, ex_only, invalid = set(dep), {}, set(), [], [], False
        with ThreadPoolExecutor(J) as ex:
            while (pend and not hits and not invalid) or run:
                if not hits and not invalid:
                    for m in sorted(pend, key=lambda m: (m.startswith("Verif.Props"), m)):
                        if len(run) >= J: break
                        if all(i in finished or i not in dep for i in mods[m][1]):
                            run[ex.submit(job, m)] = m; pend.discard(m)
                d, _ = wait(run, return_when=FIRST_COMPLETED)
                for g in d:
                    m, es = g.result(); del run[g]; finished.add(m)
                    for dcl, e in es:
                        if m.startswith("Verif.Model") and m == root: invalid = True
                        elif dcl == "an example": ex_only.append(m)
                        else: hits.append(f"{m}: {dcl}")
        if invalid: continue
        rec = {"file": f, "line": line, "definition": decl_at(p, line), "edit": key[2], "first_failed": hits[:3], "examples_failed": ex_only[:3], "seconds": round(time.time() - t0)}
        with open(log, "a") as g: g.write(json.dumps(rec) + "\n")
        print("SURVIVES" if not hits else "killed", f, line, key[2], hits[:1], rec["seconds"], flush=True)
main()
