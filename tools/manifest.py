#!/usr/bin/env python3
"""Generates MANIFEST.json; checks that every theorem named exists in lean/Verif/Props."""
import json, re, os, sys
root = os.path.dirname(os.path.dirname(os.path.abspath(__file__)))
C = {}
def claim(pid, status, ns, theorems, note=""):
    C.setdefault(pid, {"property": pid, "status": status, "theorems": [], "note": ""})
    C[pid]["theorems"] += ["PreCore.%s.%s" % (ns, t) for t in theorems.split()]
    if note: C[pid]["note"] = (C[pid]["note"] + " " + note).strip()
    C[pid]["status"] = status
exec(open(os.path.join(root, "tools", "claims.py")).read())
names = set()
for d, _, fs in os.walk(os.path.join(root, "lean", "Verif")):
    for f in fs:
        if f.endswith(".lean"):
            ns = []
            for l in open(os.path.join(d, f)):
                m = re.match(r"namespace (\S+)", l)
                if m: ns.append(m.group(1))
                m = re.match(r"end (\S+)", l)
                if m and ns and m.group(1) == ns[-1]: ns.pop()
                m = re.match(r"(?:@\[[^\]]*\]\s*)?theorem (\S+)", l)
                if m: names.add(".".join(ns + [m.group(1)]))
bad = [t for c in C.values() for t in c["theorems"] if t not in names]
props = [json.loads(l)["id"] for l in open(os.path.join(root, "properties.jsonl"))]
print("missing theorems:", bad, "| claims without property:", [c for c in C if c not in props],
      "| properties without claim:", [p for p in props if p not in C])
json.dump({"claims": [C[k] for k in sorted(C)]}, open(os.path.join(root, "MANIFEST.json"), "w"), indent=1)
