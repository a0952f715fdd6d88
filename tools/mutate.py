#!/usr/bin/env python3
"""Tests the theorems against wrong programs.

For each entry of tools/mutants.py: edit one definition of the model in a scratch copy, elaborate every module which depends on it (a proof which
no longer goes through is recorded, and its theorem becomes an assumption marked by Lean's error recovery), then ask Lean which of the theorems in
MANIFEST.json depend on a failed proof.  Appends a line per mutant to seeded/LOG.jsonl.

usage: mutate.py [-j N] [--near] [id ...]     (mutants already in the log are skipped, unless -f is given; the order is that of the arguments)
--near: only the modules which the theorems of the mutant's own claims need
"""
import json, os, re, subprocess, sys, shutil, time
from concurrent.futures import ThreadPoolExecutor, FIRST_COMPLETED, wait
here = os.path.dirname(os.path.abspath(__file__))
ROOT = os.path.dirname(here)
LEAN = os.environ.get("MUT_LEAN", ROOT + "/lean")
M = os.environ.get("MUT_DIR", "/tmp/mut")
DRIVER = r'''
import Lean
open Lean Elab
unsafe def main (args : List String) : IO UInt32 := do
  let [file, mod, out] := args | return 2
  enableInitializersExecution
  initSearchPath (← findSysroot) (((← IO.getEnv "LEAN_PATH").getD "").splitOn ":" |>.map System.FilePath.mk)
  let src ← IO.FS.readFile file
  let ictx := Parser.mkInputContext src file
  let (header, pst, msgs) ← Parser.parseHeader ictx
  let opts : Options := Elab.async.set {} false
  let (env, msgs) ← processHeader header opts msgs ictx 0 (mainModule := mod.toName) (leakEnv := true)
  let st ← IO.processCommands ictx pst { Command.mkState env msgs opts with }
  let mut bad := false
  for m in st.commandState.messages.toList do
    if m.severity == .error then
      bad := true
      IO.println s!"ERR {m.pos.line}: {((← m.data.toString).take 120).toString.replace "\n" " "}"
  writeModule st.commandState.env out
  return if bad then 1 else 0
'''
sys.path.insert(0, here)
from mutants import MUTANTS

def modules():
    r = {}
    for d, _, fs in os.walk(LEAN + "/Verif"):
        for f in fs:
            if f.endswith(".lean"):
                p = os.path.join(d, f)
                m = os.path.relpath(p, LEAN)[:-5].replace("/", ".")
                txt = open(p).read()
                r[m] = (p, re.findall(r"^import (Verif\.\S+)", txt, re.M))
    return r

def decl_at(path, line):
    ls = open(path).read().split("\n")
    for k in range(min(line, len(ls)) - 1, -1, -1):
        m = re.match(r"\s*(?:@\[[^\]]*\]\s*)?(?:private |protected |noncomputable )*(theorem|def|example|instance|structure|inductive|abbrev)\s*(\S+)?", ls[k])
        if m:
            return "an example" if m.group(1) in ("example", "instance") else m.group(2)
    return "?"

def main():
    args = sys.argv[1:]
    J = 2
    if args[:1] == ["-j"]:
        J = int(args[1]); args = args[2:]
    near = "--near" in args
    force = "-f" in args
    args = [a for a in args if a not in ("--near", "-f")]
    os.makedirs(M, exist_ok=True)
    open(M + "/Drv.lean", "w").write(DRIVER)
    mods = modules()
    lp = subprocess.run(["lake", "env", "printenv", "LEAN_PATH"], cwd=LEAN, capture_output=True, text=True).stdout.strip()
    rest = ":".join(x for x in lp.split(":") if not x.startswith(LEAN))
    log = ROOT + "/seeded/LOG.jsonl"
    done = set()
    if os.path.exists(log):
        done = {json.loads(l)["id"] for l in open(log) if l.strip()}
    claims = json.load(open(ROOT + "/MANIFEST.json"))["claims"]
    thms = sorted({t for c in claims for t in c["theorems"]})
    byid = {mu["id"]: mu for mu in MUTANTS}
    where = {}
    for m, (p, _) in mods.items():
        for t in re.findall(r"^theorem (\S+)", open(p).read(), re.M): where.setdefault(t, set()).add(m)
    for mid in (args or [mu["id"] for mu in MUTANTS]):
        mu = byid[mid]
        if not force and mid in done: continue
        t0 = time.time()
        out = M + "/out"
        shutil.rmtree(out, ignore_errors=True)
        shutil.copytree(LEAN + "/.lake/build/lib/lean", out, copy_function=os.link)
        src = LEAN + "/Verif/" + mu["file"]
        txt = open(src).read()
        assert txt.count(mu["old"]) == 1, (mu["id"], txt.count(mu["old"]))
        edited = M + "/edited.lean"
        open(edited, "w").write(txt.replace(mu["old"], mu["new"]))
        root = "Verif." + mu["file"][:-5].replace("/", ".")
        dep = {root}
        ch = True
        while ch:
            ch = False
            for m, (p, im) in mods.items():
                if m not in dep and any(i in dep for i in im):
                    dep.add(m); ch = True
        own = set(re.findall(r"C\d+", mu["claim"]))
        if near and own:
            need = set()
            todo = [m for c in claims if c["property"] in own for t in c["theorems"] for m in where.get(t.split(".")[-1], ())]
            while todo:
                m = todo.pop()
                if m in need: continue
                need.add(m); todo += mods[m][1]
            for m in dep - need:
                o = out + "/" + m.replace(".", "/") + ".olean"
                if os.path.exists(o): os.remove(o)
            dep &= need
        env = dict(os.environ, LEAN_PATH=out + ":" + rest)
        fails, errs, slow = [], {}, []
        def job(m):
            p = edited if m == root else mods[m][0]
            # one-line examples evaluated by the kernel are tests, not theorems; when they fail, reporting why can exhaust the memory
            q = M + "/src/" + m + ".lean"
            os.makedirs(M + "/src", exist_ok=True)
            open(q, "w").write(re.sub(r"^example .*:= by decide \+kernel$", "example : True := trivial", open(p).read(), flags=re.M))
            p = q
            o = out + "/" + m.replace(".", "/") + ".olean"
            if os.path.exists(o): os.remove(o)
            try:
                r = subprocess.run(["nice", "lean", "--run", M + "/Drv.lean", p, m, o], env=env, cwd=M, capture_output=True, text=True, timeout=mu.get("timeout", 900))
                lines = r.stdout.split("\n")
            except subprocess.TimeoutExpired:
                lines = ["ERR 1: timeout"]; slow.append(m)
            es = []
            for l in lines:
                k = re.match(r"ERR (\d+): (.*)", l)
                if k: es.append((decl_at(p, int(k.group(1))), k.group(2)))
            if not os.path.exists(o): slow.append(m)
            return m, es
        pend, run = set(dep), {}
        finished = set()
        with ThreadPoolExecutor(J) as ex:
            while pend or run:
                for m in sorted(pend):
                    if len(run) >= J: break
                    if all(i in finished or i not in dep for i in mods[m][1]):
                        run[ex.submit(job, m)] = m; pend.discard(m)
                d, _ = wait(run, return_when=FIRST_COMPLETED)
                for f in d:
                    m, es = f.result(); del run[f]; finished.add(m)
                    if es: errs[m] = es
        chk = M + "/Chk.lean"
        with open(chk, "w") as f:
            for m in sorted(mods):
                if os.path.exists(out + "/" + m.replace(".", "/") + ".olean"): f.write(f"import {m}\n")
            f.write("open Flate.Props\n")
            for t in thms:
              if not (near and own) or any(t in c["theorems"] for c in claims if c["property"] in own): f.write(f"#print axioms {t}\n")
        r = subprocess.run(["lean", chk], env=env, cwd=M, capture_output=True, text=True)
        bad = sorted({m.group(1).split(".")[-1] for m in re.finditer(r"'([^']+)' depends on axioms: \[([^\]]*)\]", r.stdout) if "sorry" + "Ax" in m.group(2)})
        miss = [l for l in r.stdout.split("\n") if ": error" in l][:3]
        first = []
        for m in sorted(errs):
            for d, e in errs[m]:
                s = f"{m}: {d}"
                if s not in first: first.append(s)
        cl = sorted({c["property"] for c in claims for t in c["theorems"] if t in bad})
        rec = {"id": mu["id"], "definition": mu["def"], "edit": mu["edit"], "claim": mu["claim"], "failed_proofs": first[:12], "n_failed_proofs": len(first),
               "theorems_failed": bad, "claims_hit": cl, "theorems_tightened": [], "seconds": round(time.time() - t0)}
        if near and own: rec["scope"] = "only the theorems of " + " ".join(sorted(own)) + " were checked"
        if slow: rec["no_result"] = slow
        if miss: rec["check_errors"] = miss
        with open(log, "a") as f: f.write(json.dumps(rec) + "\n")
        print(mu["id"], "claim", mu["claim"], "hit", cl, "proofs", len(first), rec["seconds"], "s", slow, miss, flush=True)
main()
