"""Prints, for every theorem named in MANIFEST.json, the axioms it depends on (writes AXIOMS.md)."""
import json, os, re, subprocess
here = os.path.dirname(os.path.dirname(os.path.abspath(__file__)))
names = [t for c in json.load(open(os.path.join(here, "MANIFEST.json")))["claims"] for t in c["theorems"]]
src = "import Verif\n" + "".join(f"#print axioms {n}\n" for n in names)
work = os.environ.get("LEAN_DIR", os.path.join(here, "lean"))
tmp = "/tmp/axioms_check.lean"
open(tmp, "w").write(src)
out = subprocess.run(["lake", "env", "lean", tmp], cwd=work, capture_output=True, text=True).stdout
out = re.sub(r"\n\s+", " ", out)
groups = {}
for line in out.splitlines():
    m = re.match(r"'(.*)' depends on axioms: \[(.*)\]", line)
    if m:
        groups.setdefault(", ".join(sorted(x.strip() for x in m.group(2).split(","))), []).append(m.group(1))
        continue
    m = re.match(r"'(.*)' does not depend on any axioms", line)
    if m:
        groups.setdefault("no axioms", []).append(m.group(1))
        continue
    raise SystemExit("unexpected: " + line)
assert sum(map(len, groups.values())) == len(names), (len(names), sum(map(len, groups.values())))
with open(os.path.join(here, "AXIOMS.md"), "w") as f:
    f.write("# Axioms used by the theorems in MANIFEST.json\n\nFrom `#print axioms`, made by `tools/axioms.py`.\n")
    for k in sorted(groups):
        f.write(f"\n## {k} ({len(groups[k])} theorems)\n\n")
        f.write("\n".join("* `" + n + "`" for n in groups[k]) + "\n")
