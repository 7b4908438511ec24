#!/usr/bin/env python3
"""Seeded-bug testing of the theorems.

usage: mutate.py BATCH.json [first [last]]

Works in a scratch copy of /verif/lean. Every entry of the batch is one edit of the model
({"file", "old", "new", "definition", "edit", "claim", "targets"}). The copy is built; every theorem that fails is
replaced by a placeholder and the build repeated, until the rest builds; then all theorems of the manifest are checked
for a dependence on a placeholder. A target (a property id) none of whose theorems is lost has survived the bug. The
result is appended to BATCH.out.jsonl; the reviewed results are in /verif/seeded/LOG.jsonl.

With MUT_TARGETS=1 only the modules with theorems of the targets (and what they import) are built, which is faster; theorems
elsewhere that would fail too are then not listed.
"""
import json, os, re, shutil, subprocess, sys

SRC = os.environ.get("MUT_SRC", "/verif/lean")
DST = "/tmp/mut/lean"
DECL = re.compile(r"^(?:private |protected |@\[[^\]]*\] )*(theorem|def|abbrev|example|instance|structure|inductive|lemma|"
                  r"noncomputable|mutual|end|namespace|section|variable|open|set_option|local|macro)\b")


def sh(cmd, cwd=DST, timeout=3000):
    p = subprocess.run(cmd, shell=True, cwd=cwd, stdout=subprocess.PIPE, stderr=subprocess.STDOUT, text=True,
                       timeout=timeout)
    return p.returncode, p.stdout


def sync():
    os.makedirs(DST, exist_ok=True)
    copy()


KDECIDE = """import Lean
open Lean Meta Elab Tactic
/-- `decide +kernel` without the costly explanation when the kernel disagrees. -/
elab "kdecide" : tactic => closeMainGoalUsing `kdecide fun expected _ => do
  let expected ← instantiateMVars expected
  let s ← synthInstance (mkApp (mkConst ``Decidable) expected)
  let pf := mkApp3 (mkConst ``of_decide_eq_true) expected s <| mkApp2 (mkConst ``Eq.refl [1]) (mkConst ``Bool) (mkConst ``true)
  let name ← (try mkAuxLemma [] expected pf catch _ => throwError "kdecide: rejected")
  return mkConst name
"""


def adapt(rel, f, t):
    """Examples are dropped, and kernel decisions fail fast."""
    if not f.endswith(".lean"):
        return t
    t = t.replace("decide +kernel", "kdecide")
    if rel == "Verif/Model" and f == "Py.lean":
        t = "import Verif.KDecide\n" + t
    if rel.startswith("Verif/Props"):
        lines = t.split("\n")
        for (i, k, kind, name) in reversed(decls(lines)):
            if kind == "example":
                if lines[i - 1].rstrip().endswith("in") and DECL.match(lines[i - 1]):
                    i -= 1
                s = i - 1
                while s > 0 and not lines[s].startswith("/--") and not lines[s].strip() == "" and not DECL.match(lines[s]):
                    s -= 1
                if lines[s].startswith("/--"):
                    i = s
                    if lines[i - 1].rstrip().endswith(" in") and DECL.match(lines[i - 1]):
                        i -= 1
                lines[i:k] = []
        t = "\n".join(lines)
    return t


def copy():
    os.makedirs(DST + "/Verif", exist_ok=True)
    if not os.path.exists(DST + "/Verif/KDecide.lean"):
        open(DST + "/Verif/KDecide.lean", "w").write(KDECIDE)
    for root, dirs, files in os.walk(SRC):
        dirs[:] = [d for d in dirs if d != ".lake"]
        rel = os.path.relpath(root, SRC)
        os.makedirs(os.path.join(DST, rel), exist_ok=True)
        for f in [x for x in files if not x.startswith("lake")]:
            a, b = os.path.join(root, f), os.path.join(DST, rel, f)
            t = adapt(rel, f, open(a).read())
            if not os.path.exists(b) or open(b).read() != t:
                open(b, "w").write(t)
    for root, dirs, files in os.walk(DST):
        dirs[:] = [d for d in dirs if d != ".lake"]
        rel = os.path.relpath(root, DST)
        for f in [x for x in files if not x.startswith("lake")]:
            if f != "KDecide.lean" and not os.path.exists(os.path.join(SRC, rel, f)):
                os.remove(os.path.join(root, f))


def decls(lines):
    """[(start, end, kind, name)] of top-level declarations, end exclusive, doc comments not included."""
    starts = [i for i, l in enumerate(lines) if DECL.match(l)]
    out = []
    for n, i in enumerate(starts):
        j = starts[n + 1] if n + 1 < len(starts) else len(lines)
        k = i + 1
        while k < j and not lines[k].startswith("/-"):
            k += 1
        m = DECL.match(lines[i])
        name = re.match(r".*?\b" + m.group(1) + r"\s+(\S+)", lines[i])
        out.append((i, k, m.group(1), name.group(1) if name else ""))
    return out


def placeholder(text):
    """The declaration with its proof replaced."""
    depth = 0
    # brackets inside literals do not count
    plain = re.sub(r"'\\?.'|\"(?:\\.|[^\"\\])*\"", lambda m: "x" * len(m.group(0)), text)
    for i, ch in enumerate(plain):
        if ch in "([{⟨":
            depth += 1
        elif ch in ")]}⟩":
            depth -= 1
        elif depth == 0 and text.startswith(":=", i):
            return text[:i] + ":= by sorry\n\n"
        elif depth == 0 and text.startswith(" where\n", i):
            return text[:i] + " := by sorry\n\n"
        elif depth == 0 and text.startswith("\n  | ", i):
            return text[:i] + " := by sorry\n\n"
    return None


def modules(targets):
    """The property modules that have theorems of the targets."""
    out = []
    for f in sorted(os.listdir(SRC + "/Verif/Props")):
        t = open(SRC + "/Verif/Props/" + f).read()
        if any(re.search(r"^theorem " + x + "_", t, re.M) for x in targets):
            out.append("Verif.Props." + f[:-5])
    return out


def build(mods):
    _, out = sh("timeout 1500 lake build " + " ".join(mods) + " 2>&1")
    errs = {}
    for m in re.finditer(r"^error: (Verif/\S+\.lean):(\d+):", out, re.M):
        errs.setdefault(m.group(1), set()).add(int(m.group(2)))
    return errs, out


def run(mut, props):
    copy()
    path = os.path.join(DST, mut["file"])
    text = open(path).read()
    if text.count(mut["old"]) != mut.get("count", 1):
        return {"status": "bad-edit", "occurrences": text.count(mut["old"])}
    open(path, "w").write(text.replace(mut["old"], mut["new"]))
    failed, rounds = [], 0
    mods = modules(mut["targets"]) if os.environ.get("MUT_TARGETS") else []
    while True:
        rounds += 1
        errs, out = build(mods)
        if not errs:
            if "error" in out and "build failed" in out:
                return {"status": "broken", "output": out[-1500:]}
            break
        if any(f.startswith("Verif/Model") or f.startswith("Verif/Spec") for f in errs):
            return {"status": "model-does-not-compile", "output": out[-1500:]}
        if rounds > 14:
            return {"status": "too-many-rounds", "failed": failed, "output": out[-1500:]}
        for f, ls in errs.items():
            p = os.path.join(DST, f)
            lines = open(p).read().split("\n")
            hit = []
            for (i, k, kind, name) in decls(lines):
                if any(i < l <= k for l in ls):
                    hit.append((i, k, kind, name))
            if not hit:
                return {"status": "unlocated", "output": out[-1500:]}
            for (i, k, kind, name) in reversed(hit):
                block = "\n".join(lines[i:k]) + "\n"
                if kind == "example":
                    new = ""
                elif kind == "theorem":
                    if "sorry" in block:
                        # statement itself does not elaborate: drop it
                        new = ""
                    else:
                        new = placeholder(block)
                    failed.append(name)
                else:
                    return {"status": "definition-fails", "name": name, "output": out[-1500:]}
                if new is None:
                    return {"status": "no-placeholder", "name": name}
                # a doc comment before a removed declaration must go too
                if new == "":
                    s = i
                    while s > 0 and not lines[s].startswith("/--") and s > i - 12:
                        s -= 1
                    if s >= 0 and lines[s].startswith("/--") and not any(
                            DECL.match(x) for x in lines[s:i]):
                        i = s
                    if lines[i - 1].rstrip().endswith(" in") and DECL.match(lines[i - 1]):
                        i -= 1
                lines[i:k] = new.split("\n")
            open(p, "w").write("\n".join(lines))
    names = [t for c in props if not mods or c["property"] in mut["targets"] for t in c["theorems"]]
    chk = "".join(f"import {m}\n" for m in mods or ["Verif"]) + "\n".join(
        f"#print axioms PashAnn.{n}" if not n.startswith("PashAnn.") else f"#print axioms {n}" for n in names)
    open("/tmp/mut/chk.lean", "w").write(chk)
    _, out = sh("lake env lean /tmp/mut/chk.lean 2>&1")
    lost = set()
    for m in re.finditer(r"'(?:PashAnn\.)?(\S+)' depends on axioms: \[([^\]]*)\]", out):
        if "sorryAx" in m.group(2):
            lost.add(m.group(1))
    for m in re.finditer(r"[Uu]nknown (?:constant|identifier) [`'](?:PashAnn\.)?([^`']+)", out):
        lost.add(m.group(1))
    lost = {x.rsplit('.', 1)[-1] for x in lost}
    lost |= {f for f in failed if re.match(r"C\d+_", f)}
    survived = [t for t in mut["targets"] if not any(x.startswith(t + "_") for x in lost)]
    return {"status": "ok", "rounds": rounds, "failed": failed, "lost": sorted(lost), "survived": survived}


def main():
    batch = json.load(open(sys.argv[1]))
    a = int(sys.argv[2]) if len(sys.argv) > 2 else 0
    b = int(sys.argv[3]) if len(sys.argv) > 3 else len(batch)
    props = json.load(open("/verif/MANIFEST.json"))["claims"]
    with open(sys.argv[1] + ".out.jsonl", "a") as o:
        for n in range(a, b):
            r = run(batch[n], props)
            r["n"] = n
            r["definition"] = batch[n]["definition"]
            r["edit"] = batch[n]["edit"]
            r["targets"] = batch[n]["targets"]
            o.write(json.dumps(r) + "\n")
            o.flush()
            print(n, r["status"], batch[n]["definition"], "survived:", r.get("survived"), "failed:", r.get("failed"),
                  flush=True)
    copy()


if __name__ == "__main__":
    main()
