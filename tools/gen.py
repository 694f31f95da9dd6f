import json, os, sys
here = os.path.dirname(os.path.abspath(__file__))
sys.path.insert(0, here)
from registry import PROPS
root = os.path.dirname(here)
import re, glob
from status import STATUS
found = {}
for fn in sorted(glob.glob(root + "/lean/Verif/Props/*.lean")):
    ns = []
    for line in open(fn):
        m = re.match(r"namespace (\S+)", line)
        if m: ns.append(m.group(1))
        m = re.match(r"end (\S+)", line)
        if m and ns and ns[-1] == m.group(1): ns.pop()
        m = re.match(r"theorem (C\d+)(_\w+'?)", line)
        if m:
            found.setdefault(m.group(1), []).append(".".join(ns + [m.group(1) + m.group(2)]))
for p in PROPS:
    if p["id"] in STATUS:
        p["status"], p["note"] = STATUS[p["id"]]
        p["theorems"] = found.get(p["id"], [])
        if p["status"] in ("proved", "partial"):
            assert p["theorems"], p["id"]
    elif p["id"] in found:
        print("theorems without status:", p["id"])
ids = [p["id"] for p in PROPS]
assert len(ids) == len(set(ids))
with open(root + "/properties.jsonl", "w") as f:
    for p in PROPS:
        f.write(json.dumps({k: p[k] for k in
            ("id", "title", "statement", "quantifier", "why_tests_cant", "anchors")},
            ensure_ascii=False) + "\n")
claims = []
for p in PROPS:
    if p["status"] in ("proved", "partial", "not_applicable"):
        claims.append(dict(property=p["id"], status=p["status"],
                           theorems=p["theorems"], note=p["note"]))
json.dump({"claims": claims}, open(root + "/MANIFEST.json", "w"), indent=1, ensure_ascii=False)
head = open(here + "/design_head.md").read()
with open(root + "/DESIGN.md", "w") as f:
    f.write(head)
    f.write("\n## Per-property plan\n\n")
    for p in PROPS:
        f.write(f"### {p['id']} {p['title']}\n\n{p['statement']}\n\n*Ranges over:* {p['quantifier']}.\n\n*Plan / model:* {p['plan']}\n\n")
        if p["status"] != "planned":
            f.write(f"*Status:* {p['status']}. " + (p["note"] or "") + "\n\n*Theorems:* " + ", ".join(f"`{t}`" for t in p["theorems"]) + "\n\n")
print(len(PROPS), "properties,", len(claims), "claims")
