#!/usr/bin/env python3
"""Run seeded bugs against the theorems, in a scratch directory (never in /verif).

usage: mutate.py mutants_file.py [name ...]
A mutants file calls M(name, file, definition, old, new, claim, breaks=[property ids], note="").
For every mutant: the edited module and everything downstream is recompiled by an error tolerant
compiler (a failing proof becomes a hole and the compilation goes on); a manifest theorem *fails*
if it is absent or its proof uses a hole.  A mutant is *killed* when at least one theorem of each property
in `breaks` fails.  With ONLY=1 only the theorems of the
properties in `breaks` are recompiled.  With LOG=1 one line per mutant is appended to seeded/LOG.jsonl.
"""
import sys, os, re, json, shutil, subprocess, concurrent.futures as cf
ROOT = os.path.dirname(os.path.dirname(os.path.abspath(__file__)))
LEAN = ROOT + "/lean"
W = "/tmp/mut"
TOL = r'''
import Lean
open Lean Elab
unsafe def main (args : List String) : IO UInt32 := do
  initSearchPath (← findSysroot)
  enableInitializersExecution
  match args with
  | ["compile", mod, file, olean] =>
    let input ← IO.FS.readFile file
    let ictx := Parser.mkInputContext input file
    let (header, ps, msgs) ← Parser.parseHeader ictx
    let (env, msgs) ← processHeader header {} msgs ictx (trustLevel := 0) (mainModule := mod.toName)
    let st ← IO.processCommands ictx ps (Command.mkState env msgs {})
    for m in st.commandState.messages.toList do
      if m.severity == .error then
        IO.println s!"ERR {m.pos.line} {((← m.data.toString).take 90).replace "\n" " "}"
    writeModule st.commandState.env olean
    return 0
  | "axioms" :: rest =>
    let mods := rest.takeWhile (· != "--")
    let thms := (rest.dropWhile (· != "--")).drop 1
    let env ← importModules (mods.map fun m => ({ module := m.toName } : Import)).toArray {} 0
    for t in thms do
      let nm := t.toName
      if !(env.contains nm) then IO.println s!"FAIL {t}"
      else
        let (axs, _) ← (collectAxioms nm : CoreM (Array Name)).toIO { fileName := "", fileMap := default } { env }
        if axs.contains ``sorryAx then IO.println s!"FAIL {t}"
    return 0
  | _ => return 1
'''
def ensure_tol():
    os.makedirs(W, exist_ok=True)
    if not os.path.exists(W + "/tol"):
        open(W + "/Tol.lean", "w").write(TOL)
        subprocess.check_call("cd %s && lean -c Tol.c Tol.lean && leanc -O2 -rdynamic -o tol Tol.c" % W, shell=True)
MUT = []
def M(name, file, definition, old, new, claim, breaks, note="", tightened=None, count=1):
    MUT.append(dict(name=name, file=file, definition=definition, old=old, new=new, claim=claim,
                    breaks=breaks, note=note, tightened=tightened or [], count=count))
def modules():
    out = {}
    for dp, _, fs in os.walk(LEAN + "/Verif"):
        for f in fs:
            if f.endswith(".lean"):
                p = os.path.join(dp, f)
                m = os.path.relpath(p, LEAN)[:-5].replace("/", ".")
                out[m] = (p, re.findall(r"^import (Verif\.\S+)", open(p).read(), re.M))
    return out
def run(mu, mods, thms, path):
    d = W + "/s_" + mu["name"]
    shutil.rmtree(d, ignore_errors=True)
    os.makedirs(d)
    shutil.copytree(LEAN + "/.lake/build/lib/lean/Verif", d + "/Verif")
    src = open(LEAN + "/" + mu["file"]).read()
    assert src.count(mu["old"]) == mu["count"], (mu["name"], "pattern occurs", src.count(mu["old"]))
    new = src.replace(mu["old"], mu["new"])
    tgt = mu["file"][:-5].replace("/", ".")
    dirty, order = {tgt}, []
    # topological order of the downstream modules
    todo = dict(mods)
    done = set()
    while todo:
        for m in sorted(todo):
            if all(i in done for i in todo[m][1]):
                if m in dirty or any(i in dirty for i in todo[m][1]):
                    dirty.add(m); order.append(m)
                done.add(m); del todo[m]
                break
    env = dict(os.environ, LEAN_PATH=d + ":" + path)
    errs = []
    tops = [m for m in mods if "Props" in m]
    if os.environ.get("ONLY"):  # only the modules that the theorems of the listed properties need
        names = tuple(b + "_" for b in mu["breaks"])
        thms = [t for t in thms if t.split(".")[-1].startswith(names)]
        base = [t.split(".")[-1] for t in thms]
        tops = [m for m in mods if any(re.search(r"theorem %s\b" % re.escape(b), open(mods[m][0]).read()) for b in base)]
        need, stack = set(), list(tops)
        while stack:
            m = stack.pop()
            if m not in need: need.add(m); stack += mods[m][1]
        order = [m for m in order if m in need]
    for m in order:
        p = mods[m][0]
        text = new if m == tgt else open(p).read()
        f = d + "/src.lean"; open(f, "w").write(text)
        r = subprocess.run([W + "/tol", "compile", m, f, d + "/" + m.replace(".", "/") + ".olean"], env=env,
                           capture_output=True, text=True)
        if r.returncode: errs.append((m, "crash " + r.stderr[:200])); continue
        ls = text.split("\n")
        for l in r.stdout.split("\n"):
            if l.startswith("ERR"):
                n = int(l.split()[1])
                name = "?"
                for k in range(min(n, len(ls)) - 1, -1, -1):
                    g = re.match(r"(?:@\[[^\]]*\] *|private |protected |noncomputable )*(theorem|lemma|def|example|instance|structure|abbrev|inductive)\b\s*(\S*)", ls[k])
                    if g: name = g.group(2) if g.group(1) != "example" else "example"; kind = g.group(1); break
                errs.append((m, name))
    # a mutant whose model does not compile is not a valid mutant
    bad = [e for e in errs if e[0] == tgt and "Model" in tgt]
    r = subprocess.run([W + "/tol", "axioms"] + tops + ["--"] + thms, env=env, capture_output=True, text=True)
    failed = [l[5:].replace(" (absent)", "") for l in r.stdout.split("\n") if l.startswith("FAIL")]
    if r.returncode: errs.append(("axioms", r.stderr[:300]))
    shutil.rmtree(d, ignore_errors=True)
    return errs, failed, bad
def main():
    ensure_tol()
    exec(open(sys.argv[1]).read(), globals())
    subprocess.check_call("lake build 2>&1 | tail -1", shell=True, cwd=LEAN)
    path = subprocess.check_output(["lake", "env", "printenv", "LEAN_PATH"], cwd=LEAN, text=True).strip()
    claims = json.load(open(ROOT + "/MANIFEST.json"))["claims"]
    prop = {t: c["property"] for c in claims for t in c["theorems"]}
    mods = modules()
    sel = [m for m in MUT if len(sys.argv) < 3 or m["name"] in sys.argv[2:]]
    for m in sel:
        k = open(LEAN + "/" + m["file"]).read().count(m["old"])
        if k != m["count"]: print("PATTERN", m["name"], k)
    sel = [m for m in sel if open(LEAN + "/" + m["file"]).read().count(m["old"]) == m["count"]]
    with cf.ThreadPoolExecutor(4) as ex:
        for mu, (errs, failed, bad) in zip(sel, ex.map(lambda m: run(m, mods, list(prop), path), sel)):
            hit = {prop[t] for t in failed}
            miss = [b for b in mu["breaks"] if b not in hit]
            verdict = "BADMODEL" if bad else ("killed" if not miss else "SURVIVED " + ",".join(miss))
            print(mu["name"], verdict, "| props hit:", sorted(hit), "| errs:", sorted({e[1] for e in errs})[:8])
            if bad: print("   ", bad)
            if os.environ.get("LOG") and not bad:
                with open(ROOT + "/seeded/LOG.jsonl", "a") as f:
                    f.write(json.dumps({"definition": mu["definition"], "file": mu["file"],
                        "edit": "replace `%s` by `%s`" % (mu["old"], mu["new"]), "claim_broken": mu["claim"],
                        "properties": mu["breaks"], "theorems_failed": failed,
                        "first_failing_declarations": sorted({e[1] for e in errs})[:12],
                        "result": verdict, "tightened": mu["tightened"], "note": mu["note"],
                        "scope": "theorems of the listed properties" if os.environ.get("ONLY") else "all theorems"}) + "\n")
            sys.stdout.flush()
main()
