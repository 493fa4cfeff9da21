#!/usr/bin/env python3
"""Generate MANIFEST.json from the table below, checking that every theorem exists in the sources."""
import json, re, os, glob
root = os.path.dirname(os.path.dirname(os.path.abspath(__file__)))
claims = []
def C(pid, status, theorems, note=""):
    claims.append({"property": pid, "status": status, "theorems": theorems, "note": note})
exec(open(os.path.join(root, "tools", "manifest_table.py")).read())
src = "\n".join(open(f).read() for f in glob.glob(root + "/lean/Verif/**/*.lean", recursive=True))
names = set(re.findall(r"^(?:private |protected |@\[[^\]]*\] *)*theorem\s+(\S+)", src, re.M))
missing = [t for c in claims for t in c["theorems"] if t.split(".")[-1] not in {n.split(".")[-1] for n in names}]
assert not missing, missing
props = [json.loads(l)["id"] for l in open(root + "/properties.jsonl")]
assert len({c["property"] for c in claims}) == len(claims)
assert all(c["property"] in props for c in claims)
json.dump({"claims": claims}, open(root + "/MANIFEST.json", "w"), indent=1)
print(len(claims), "claims;", "without claim:", [p for p in props if p not in {c["property"] for c in claims}])
