#!/usr/bin/env python3
"""Writes MANIFEST.json from the property theorems in lean/Verif/Props and the notes below."""
import json, os, re, glob
root = os.path.dirname(os.path.dirname(os.path.abspath(__file__)))
ids = [json.loads(l)["id"] for l in open(os.path.join(root, "properties.jsonl"))]
thms = {}
for f in sorted(glob.glob(os.path.join(root, "lean/Verif/Props/*.lean"))):
    ns = []
    for line in open(f):
        m = re.match(r"namespace (\S+)", line)
        if m:
            ns.append(m.group(1))
        elif ns and line.rstrip() == "end " + ns[-1]:
            ns.pop()
        m = re.match(r"theorem (C\d+_\w+)", line)
        if m:
            thms.setdefault(m.group(1).split("_")[0], []).append(".".join(ns + [m.group(1)]))
notes = json.load(open(os.path.join(root, "tools/notes.json")))
claims = []
for i in ids:
    t = thms.get(i, [])
    n = notes.get(i, {})
    if not t:
        if "status" not in n:
            continue
        status = n["status"]
    else:
        status = n.get("status", "partial" if any(x.endswith("_partial") for x in t) else "proved")
    claims.append({"property": i, "status": status, "theorems": t, "note": n.get("note", "")})
json.dump({"claims": claims}, open(os.path.join(root, "MANIFEST.json"), "w"), indent=1)
with open(os.path.join(root, "lean/Verif/Axioms.lean"), "w") as o:
    for f in sorted(glob.glob(os.path.join(root, "lean/Verif/Props/*.lean"))):
        o.write("import Verif.Props." + os.path.basename(f)[:-5] + "\n")
    o.write("\n/-! Axioms used by every property theorem (generated by tools/manifest.py). -/\n\n")
    for i in ids:
        for t in thms.get(i, []):
            o.write("#print axioms " + t + "\n")
mods = []
for d, _, fs in os.walk(os.path.join(root, "lean/Verif")):
    for f in fs:
        if f.endswith(".lean"):
            mods.append(os.path.relpath(os.path.join(d, f), os.path.join(root, "lean"))[:-5].replace("/", "."))
open(os.path.join(root, "lean/Verif.lean"), "w").write("".join("import %s\n" % m for m in sorted(mods)))
from collections import Counter
print(Counter(c["status"] for c in claims), sum(len(c["theorems"]) for c in claims), "theorems")
