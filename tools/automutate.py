#!/usr/bin/env python3
"""Automatic seeded bugs: small syntactic edits of the definitions of a model, in a scratch directory.

usage: automutate.py seed per_definition out.jsonl Model [Model ...]
For every edit that still compiles, the modules downstream are recompiled (tolerant compiler of mutate.py)
until a declaration fails.  Edits after which nothing fails are reported as SURVIVED: either the edit does not
change the behaviour the claims talk about, or a theorem is too weak; they are inspected by hand.
"""
import sys, os, re, json, shutil, subprocess, random, concurrent.futures as cf
ROOT = os.path.dirname(os.path.dirname(os.path.abspath(__file__)))
LEAN = ROOT + "/lean"
W = "/tmp/mut"
OUT = "/tmp/automut"
OPS = [(r" < ", " ≤ "), (r" ≤ ", " < "), (r" > ", " ≥ "), (r" ≥ ", " > "), (r" < ", " > "), (r" ≤ ", " ≥ "),
       (r" \+ ", " - "), (r" - ", " + "), (r" \* ", " + "), (r" / ", " * "),
       (r" && ", " || "), (r" \|\| ", " && "), (r" ∧ ", " ∨ "), (r" ∨ ", " ∧ "), (r" = ", " ≠ "), (r" == ", " != "), (r" != ", " == "), (r" ≠ ", " = "),
       (r"\btrue\b", "false"), (r"\bfalse\b", "true"), (r"!(?=\w|\()", ""), (r"¬ ?", ""),
       (r"\.x\b", ".y"), (r"\.y\b", ".z"), (r"\.z\b", ".x"), (r"\.1\b", ".2"), (r"\.2\b", ".1"),
       (r"(?<![\w.])0(?![\w.])", "1"), (r"(?<![\w.])1(?![\w.])", "2"), (r"(?<![\w.])2(?![\w.])", "3"), (r"(?<![\w.])3(?![\w.])", "2"), (r"(?<![\w.])-(?=[\w(])", ""),
       (r"\bmin\b", "max"), (r"\bmax\b", "min"), (r"\.take\b", ".drop"), (r"\.drop\b", ".take"), (r"\bsin\b", "cos"), (r"\bcos\b", "sin"),
       (r"\.head\?", ".getLast?"), (r"\.getLast\?", ".head?"), (r"\.filter\b", ".filter (!·) |>.map id |>.filter"), (r"\.reverse\b", ""), (r"\.any\b", ".all"), (r"\.all\b", ".any"),
       (r"\.tail\b", ""), (r"\.transpose\b", ""), (r"\bsucc\b", "id"),
       (r"\.set (\w+) (\w+)", r".set \2 \1"), (r"\.erase \w+", ""), (r"\.insert \w+ \w+", ""),
       (r"\bif ([^:\n]*?) then\b", r"if ¬(\1) then"), (r"\bsome \((.*?)\)(?=\n|$)", "none")]
def edits(text):
    """all single edits of a definition: (description, new text)"""
    out = []
    body = text.find(":=")
    k = text.find("\n  |")
    if body < 0 or (0 <= k < body): body = k
    if body < 0: return out
    for pat, rep in OPS:
        for m in re.finditer(pat, text):
            if m.start() < body: continue
            new = text[:m.start()] + m.expand(rep) + text[m.end():]
            if new != text: out.append(("%s -> %s at %d" % (m.group(0).strip() or m.group(0), m.expand(rep).strip(), m.start()), new))
    # swapped simple arguments
    for m in re.finditer(r"(?<=[\w.'?] )(\b[a-zA-Z_]\w*(?:\.\w+)*) (\b[a-zA-Z_]\w*(?:\.\w+)*)(?=[\s,)\]}]|$)", text):
        if m.start() < body: continue
        if m.group(1) in ("then", "else", "let", "if", "with", "match", "in", "fun") or m.group(2) in ("then", "else", "let", "if", "with", "match", "in", "fun"): continue
        if m.group(1) == m.group(2): continue
        out.append(("swap %s %s at %d" % (m.group(1), m.group(2), m.start()), text[:m.start()] + m.group(2) + " " + m.group(1) + text[m.end():]))
    # dropped field updates
    for m in re.finditer(r"\n +\w+ := [^\n{}]*(?=\n)", text):
        if m.start() < body: continue
        out.append(("drop %s" % m.group(0).strip(), text[:m.start()] + text[m.end():]))
    for m in re.finditer(r"(?<=[{,] )?\b\w+ := [^,{}\n]*, ", text):
        if m.start() < body: continue
        out.append(("drop %s" % m.group(0).strip(), text[:m.start()] + text[m.end():]))
    return out
def defs(src):
    out = []
    for m in re.finditer(r"^(?:@\[[^\]]*\] *|private |protected |noncomputable )*def ([\w.'?!]+)", src, re.M):
        e = re.compile(r"\n\n|\n/--|\n@\[|\nopen |\nend |\ntheorem |\nlemma |\ninstance ").search(src, m.start())
        out.append((m.group(1), m.start(), e.start() if e else len(src)))
    return out
def modules():
    out = {}
    for dp, _, fs in os.walk(LEAN + "/Verif"):
        for f in fs:
            if f.endswith(".lean"):
                p = os.path.join(dp, f)
                m = os.path.relpath(p, LEAN)[:-5].replace("/", ".")
                t = open(p).read()
                out[m] = (p, re.findall(r"^import (Verif\.\S+)", t, re.M), t)
    return out
def order_of(tgt, mods):
    dirty, order, done, todo = {tgt}, [], set(), {m: mods[m][1] for m in mods}
    while todo:
        ready = [m for m in todo if all(i in done for i in todo[m])]
        clean = [m for m in ready if m not in dirty and not any(i in dirty for i in todo[m])]
        if clean:
            for m in clean: done.add(m); del todo[m]
            continue
        ready.sort(key=lambda m: (m != tgt, "Props" not in m, len(mods[m][2])))
        m = ready[0]; dirty.add(m); order.append(m); done.add(m); del todo[m]
    return order
def declAt(text, n):
    ls = text.split("\n")
    for k in range(min(n, len(ls)) - 1, -1, -1):
        g = re.match(r"(?:@\[[^\]]*\] *|private |protected |noncomputable )*(theorem|lemma|def|example|instance|structure|abbrev|inductive)\b\s*(\S*)", ls[k])
        if g: return g.group(1), g.group(2)
    return "?", "?"
def run(job, mods, path, idx):
    tgt, name, desc, new, order = job
    d = "%s/w%d" % (OUT, idx)
    shutil.rmtree(d, ignore_errors=True); os.makedirs(d)
    base = LEAN + "/.lake/build/lib/lean"
    if os.path.exists(OUT + "/base"): base = OUT + "/base"
    for dp, _, fs in os.walk(base + "/Verif"):
        rel = os.path.relpath(dp, base); os.makedirs(d + "/" + rel, exist_ok=True)
        for f in fs:
            if f.endswith(".olean") and (rel + "/" + f)[:-6].replace("/", ".") not in order:
                os.symlink(dp + "/" + f, d + "/" + rel + "/" + f)
    env = dict(os.environ, LEAN_PATH=d + ":" + path)
    weak = []
    verdict = None
    try:
        for m in order:
            text = new if m == tgt else mods[m][2]
            f = d + "/src.lean"; open(f, "w").write(text)
            r = subprocess.run(["nice", "-n", "10", W + "/tol", "compile", m, f, d + "/" + m.replace(".", "/") + ".olean"], env=env, capture_output=True, text=True, timeout=900)
            es = [declAt(text, int(l.split()[1])) for l in r.stdout.split("\n") if l.startswith("ERR")]
            if r.returncode: verdict = ("CRASH", m + r.stderr[:200]); break
            if m == tgt and es: verdict = ("BADMODEL", ""); break
            strong = [e for e in es if e[0] in ("theorem", "lemma", "def", "instance")]
            weak += [(m, e) for e in es if e not in strong]
            if strong: verdict = ("killed", "%s %s" % (m, strong[0][1])); break
    except subprocess.TimeoutExpired:
        verdict = ("TIMEOUT", "")
    shutil.rmtree(d, ignore_errors=True)
    if verdict is None: verdict = ("WEAK", str(weak[:2])) if weak else ("SURVIVED", "")
    return verdict
def main():
    seed, per, outf, models = int(sys.argv[1]), int(sys.argv[2]), sys.argv[3], sys.argv[4:]
    rng = random.Random(seed)
    os.makedirs(OUT, exist_ok=True)
    path = subprocess.check_output(["lake", "env", "printenv", "LEAN_PATH"], cwd=LEAN, text=True).strip()
    shutil.rmtree(OUT + "/base", ignore_errors=True); os.makedirs(OUT + "/base")
    shutil.copytree(LEAN + "/.lake/build/lib/lean/Verif", OUT + "/base/Verif")
    mods = modules()
    words = set()
    if os.environ.get("UNTOUCHED"):  # only definitions that no mutant of LOG.jsonl names
        for l in open(ROOT + "/seeded/LOG.jsonl"):
            for w in re.findall(r"[\w.'?!]+", json.loads(l)["definition"]): words |= {w, w.split(".")[-1]}
    jobs = []
    for mod in models:
        tgt = "Verif.Model." + mod if "." not in mod else "Verif." + mod
        src = mods[tgt][2]; order = order_of(tgt, mods)
        for name, a, b in defs(src):
            if name.split(".")[-1] in words: continue
            es = edits(src[a:b]); rng.shuffle(es)
            for desc, t in es[:per]: jobs.append((tgt, name, desc, src[:a] + t + src[b:], order))
    print(len(jobs), "edits"); sys.stdout.flush()
    cnt = {}
    def one(p):
        i, j = p
        return j, run(j, mods, path, i)
    with cf.ThreadPoolExecutor(int(os.environ.get("JOBS", "3"))) as ex, open(outf, "a") as o:
        for j, v in ex.map(one, enumerate(jobs)):
            cnt[v[0]] = cnt.get(v[0], 0) + 1
            o.write(json.dumps({"module": j[0], "definition": j[1], "edit": j[2], "result": v[0], "by": v[1]}, ensure_ascii=False) + "\n"); o.flush()
            if v[0] in ("SURVIVED", "WEAK", "CRASH", "TIMEOUT"): print(v[0], j[0], j[1], "|", j[2], "|", v[1]); sys.stdout.flush()
    print(cnt)
main()
