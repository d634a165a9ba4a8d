#!/usr/bin/env python3
"""Regenerate MANIFEST.json and lean/Verif/Audit.lean from the Lean sources.

Property theorems are the theorems named Cxx_* in lean/Verif/**; status and notes come
from tools/status.json.
"""
import json, os, re, sys
root = os.path.dirname(os.path.dirname(os.path.abspath(__file__)))
thms = {}
mods = []
for d, _, fs in sorted(os.walk(os.path.join(root, "lean", "Verif"))):
    for f in sorted(fs):
        if not f.endswith(".lean") or f == "Audit.lean":
            continue
        p = os.path.join(d, f)
        mods.append(os.path.relpath(p, os.path.join(root, "lean"))[:-5].replace("/", "."))
        ns = []
        for line in open(p):
            m = re.match(r"namespace\s+(\S+)", line)
            if m:
                ns.append(m.group(1))
            m = re.match(r"end\s+(\S+)", line)
            if m and ns and ns[-1] == m.group(1):
                ns.pop()
            m = re.match(r"(?:private\s+)?theorem\s+(C\d\d\d?)_(\S+)", line)
            if m:
                thms.setdefault(m.group(1), []).append(".".join(ns + [m.group(1) + "_" + m.group(2)]))
status = json.load(open(os.path.join(root, "tools", "status.json")))
claims = []
for l in open(os.path.join(root, "properties.jsonl")):
    o = json.loads(l)
    i = o["id"]
    if i in thms:
        s = status.get(i, {"status": "proved", "note": ""})
        claims.append({"property": i, "status": s["status"], "theorems": thms[i], "note": s["note"]})
json.dump({"claims": claims}, open(os.path.join(root, "MANIFEST.json"), "w"), indent=1, ensure_ascii=False)
with open(os.path.join(root, "lean", "Verif", "Audit.lean"), "w") as f:
    for m in mods:
        if not m.endswith(".Audit"):
            f.write("import %s\n" % m)
    f.write("\n/-! Axioms used by every property theorem (printed during the build). Generated by tools/gen.py. -/\n\n")
    for i in sorted(thms):
        for t in thms[i]:
            f.write("#print axioms %s\n" % t)
with open(os.path.join(root, "lean", "Verif.lean"), "w") as f:
    for m in mods:
        f.write("import %s\n" % m)
    f.write("import Verif.Audit\n")
print(len(claims), "claims", sum(len(c["theorems"]) for c in claims), "theorems", len(mods), "modules")
for i in thms:
    if i not in status: print("no status for", i)
