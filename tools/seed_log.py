#!/usr/bin/env python3
"""Write seeded/LOG.jsonl from the batches and their results in seeded/batches.

A batch NAME.json holds the edits, NAME.json.out.jsonl the results of tools/mutate.py and NAME.names.txt the theorem
names that existed in the version of the sources the batch was run against. seeded/batches/review.json maps
"NAME/index" to what was done about a survivor.
"""
import json, os

D = os.path.join(os.path.dirname(os.path.abspath(__file__)), "..", "seeded")
B = os.path.join(D, "batches")
review = json.load(open(os.path.join(B, "review.json")))
out = []
for f in sorted(os.listdir(B)):
    if not f.endswith(".json") or f == "review.json":
        continue
    name = f[:-5]
    res = os.path.join(B, f + ".out.jsonl")
    if not os.path.exists(res):
        continue
    batch = json.load(open(os.path.join(B, f)))
    nm = os.path.join(B, name + ".names.txt")
    known = set(open(nm).read().split()) if os.path.exists(nm) else None
    last = {}
    for line in open(res):
        r = json.loads(line)
        last[r["n"]] = r
    for n in sorted(last):
        r, m = last[n], batch[n]
        lost = [t.rsplit(".", 1)[-1] for t in r.get("lost", []) if known is None or t.rsplit(".", 1)[-1] in known]
        hit = {t.split("_")[0] for t in lost + r.get("failed", [])}
        survived = [t for t in m["targets"] if t not in hit] if r["status"] == "ok" else []
        e = {"id": f"{name}/{n}", "definition": m["definition"], "edit": m["edit"], "claim_broken": m["claim"],
             "claim_ids": m["targets"], "status": r["status"],
             "theorems_failed": sorted(set(r.get("failed", [])) | set(lost)),
             "survived": survived, "theorems_tightened": []}
        e.update(review.get(f"{name}/{n}", {}))
        out.append(e)
with open(os.path.join(D, "LOG.jsonl"), "w") as g:
    for e in out:
        g.write(json.dumps(e, ensure_ascii=False) + "\n")
print(len(out), "entries;", sum(1 for e in out if e["survived"]), "with a survivor")
