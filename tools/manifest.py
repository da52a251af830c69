#!/usr/bin/env python3
"""Regenerate MANIFEST.json from the theorem names in lean/Verif/Props (prefix Cnn_)."""
import json, re, glob, collections, os
root = os.path.dirname(os.path.dirname(os.path.abspath(__file__)))
notes = json.load(open(os.path.join(root, "tools", "notes.json")))
thms = collections.OrderedDict()
for f in sorted(glob.glob(os.path.join(root, "lean/Verif/Props/*.lean"))):
    src = open(f).read()
    ns = re.search(r"^namespace (\S+)", src, re.M).group(1)
    for m in re.finditer(r"^theorem (C(\d\d\d?)_\w+)", src, re.M):
        thms.setdefault("C" + m.group(2), []).append(ns + "." + m.group(1))
claims = []
for l in open(os.path.join(root, "properties.jsonl")):
    p = json.loads(l)["id"]
    if p not in thms: continue
    t = thms[p]
    status = "partial" if any("_partial" in x or "_violated" in x for x in t) else "proved"
    claims.append({"property": p, "status": status, "theorems": t, "note": notes.get(p, "")})
json.dump({"claims": claims}, open(os.path.join(root, "MANIFEST.json"), "w"), indent=1)
print(len(claims), "claims", sum(len(c["theorems"]) for c in claims), "theorems",
      sum(c["status"] == "partial" for c in claims), "partial")
