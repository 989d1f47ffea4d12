#!/usr/bin/env python3
"""Generates ../MANIFEST.json from the theorems `Cnn_...` in lean/Verif/Props."""
import json, os, re, glob
here = os.path.dirname(os.path.abspath(__file__))
thms = {}
for f in sorted(glob.glob(os.path.join(here, "../lean/Verif/Props/*.lean"))):
    ns = None
    for line in open(f):
        m = re.match(r"namespace (\S+)", line)
        if m: ns = m.group(1)
        m = re.match(r"(?:private )?theorem ((C\d+)_\S+)", line)
        if m: thms.setdefault(m.group(2), []).append(ns + "." + m.group(1))
NOTES = json.load(open(os.path.join(here, "notes.json")))
claims = []
for l in open(os.path.join(here, "../properties.jsonl")):
    i = json.loads(l)["id"]
    if i not in thms: continue
    st = "partial" if any(t.endswith("_partial") for t in thms[i]) else "proved"
    claims.append(dict(property=i, status=st, theorems=thms[i], note=NOTES.get(i, "")))
with open(os.path.join(here, "../MANIFEST.json"), "w") as o:
    o.write('{"claims": [\n' + ",\n".join(" " + json.dumps(c) for c in claims) + "\n]}\n")
print(len(claims), "claims", sum(len(c["theorems"]) for c in claims), "theorems")
