#!/usr/bin/env python3
"""Regenerate lean/Verif.lean and MANIFEST.json from the Lean sources and tools/notes.json."""
import json, os, re
root = os.path.dirname(os.path.dirname(os.path.abspath(__file__)))
src = os.path.join(root, "lean", "Verif")
mods, thms = [], {}
for d, _, fs in sorted(os.walk(src)):
    for f in sorted(fs):
        if not f.endswith(".lean"):
            continue
        p = os.path.join(d, f)
        mods.append("Verif." + os.path.relpath(p, src)[:-5].replace(os.sep, "."))
        ns = []
        for line in open(p):
            m = re.match(r"namespace (\S+)", line)
            if m:
                ns.append(m.group(1))
            m = re.match(r"end (\S+)", line)
            if m and ns and ns[-1] == m.group(1):
                ns.pop()
            m = re.match(r"(?:private )?theorem (C\d\d\d?)_(\S+)", line)
            if m:
                thms.setdefault(m.group(1), []).append(".".join(ns + [m.group(1) + "_" + m.group(2)]))
open(os.path.join(root, "lean", "Verif.lean"), "w").write("".join(f"import {m}\n" for m in mods))
notes = json.load(open(os.path.join(root, "tools", "notes.json")))
claims = []
for line in open(os.path.join(root, "properties.jsonl")):
    i = json.loads(line)["id"]
    ts = thms.pop(i, [])
    note = notes.get(i, "")
    part = any("_partial" in t or "_counterexample" in t for t in ts)
    status = "partial" if (part or not ts) else "proved"
    claims.append({"property": i, "status": status, "theorems": ts,
                   "note": note or ("" if ts else "not yet proved")})
assert not thms, thms
json.dump({"claims": claims}, open(os.path.join(root, "MANIFEST.json"), "w"), indent=1, ensure_ascii=False)
print(len(claims), "claims,", sum(1 for c in claims if c["status"] == "proved"), "proved,",
      sum(1 for c in claims if c["theorems"] and c["status"] == "partial"), "partial,",
      sum(1 for c in claims if not c["theorems"]), "open;", len(mods), "modules")
