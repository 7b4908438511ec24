#!/usr/bin/env python3
"""Seeded-bug testing that stops at the first theorem that is lost.

usage: fastmutate.py BATCH.json [first [last]]

Like mutate.py (same batches, same scratch copy conventions), but every edit starts from a finished build of the unedited
copy, and the build is stopped as soon as a theorem or lemma fails on which a theorem of one of the targets depends (of any
property, if there are no targets). The dependences come from the unedited build (tools/deps.lean.txt). The result has the
theorems and lemmas that failed until then and all theorems of properties that depend on them.
"""
import json, os, re, shutil, signal, subprocess, sys, time
sys.path.insert(0, os.path.dirname(os.path.abspath(__file__)))
import mutate
from mutate import decls, placeholder, DECL

SRC = os.environ.get("MUT_SRC", "/verif/lean")
DST = "/tmp/mut/fast/lean"
GOOD = "/tmp/mut/fast/good"
DEPS = "/tmp/mut/fast/deps.txt"
mutate.SRC, mutate.DST = SRC, DST


def prepare():
    """Builds the unedited copy and keeps the result."""
    os.makedirs(DST, exist_ok=True)
    mutate.copy()
    shutil.copy(SRC + "/lakefile.toml", DST)
    r = subprocess.run("lake build 2>&1 | tail -3; lake env lean %s > %s" % (
        os.path.join(os.path.dirname(os.path.abspath(__file__)), "deps.lean.txt"), DEPS), shell=True, cwd=DST,
        stdout=subprocess.PIPE, text=True)
    print(r.stdout, flush=True)
    assert "successfully" in r.stdout
    shutil.rmtree(GOOD, ignore_errors=True)
    shutil.copytree(DST + "/.lake/build", GOOD)


def short(n):
    return n.rsplit(".", 1)[-1]


def dependents():
    out = {}
    for line in open(DEPS):
        if "\t" not in line:
            continue
        root, rest = line.rstrip("\n").split("\t")
        for n in rest.split(" ") + [root]:
            out.setdefault(short(n), set()).add(short(root))
    return out


def build(enough):
    """Runs the build until it ends or an error is enough."""
    p = subprocess.Popen("lake build 2>&1", shell=True, cwd=DST, stdout=subprocess.PIPE, text=True, start_new_session=True)
    lines, stop = [], False
    start = time.time()
    for line in p.stdout:
        lines.append(line)
        if re.match(r"error: Verif/\S+\.lean:\d+:", line):
            stop = True
        # all errors of a module come together
        if stop and re.match(r"[✔✖ℹ⚠] \[", line) and enough("".join(lines)):
            break
        if stop and line.startswith("error: Lean exited") and enough("".join(lines)):
            break
        if time.time() - start > 2400:
            break
    try:
        os.killpg(p.pid, signal.SIGKILL)
    except ProcessLookupError:
        pass
    p.wait()
    return "".join(lines)


def located(out):
    """{file: set of lines} of the errors."""
    errs = {}
    for m in re.finditer(r"^error: (Verif/\S+\.lean):(\d+):", out, re.M):
        errs.setdefault(m.group(1), set()).add(int(m.group(2)))
    return errs


def hits(errs):
    out = {}
    for f, ls in errs.items():
        lines = open(os.path.join(DST, f)).read().split("\n")
        out[f] = [(i, k, kind, name) for (i, k, kind, name) in decls(lines) if any(i < l <= k for l in ls)]
    return out


def run(mut, deps):
    mutate.copy()
    shutil.rmtree(DST + "/.lake/build", ignore_errors=True)
    shutil.copytree(GOOD, DST + "/.lake/build")
    path = os.path.join(DST, mut["file"])
    text = open(path).read()
    if "start" in mut:
        if text[mut["start"]:mut["start"] + len(mut["old"])] != mut["old"]:
            return {"status": "bad-edit"}
        new = text[:mut["start"]] + mut["new"] + text[mut["start"] + len(mut["old"]):]
    else:
        if text.count(mut["old"]) != mut.get("count", 1):
            return {"status": "bad-edit", "occurrences": text.count(mut["old"])}
        new = text.replace(mut["old"], mut["new"])
    open(path, "w").write(new)
    failed, lost = [], set()
    targets = mut.get("targets", [])

    def done():
        return all(any(x.startswith(t + "_") for x in lost) for t in targets) if targets else bool(lost)

    def enough(out):
        errs = located(out)
        if any(f.startswith("Verif/Model") or f.startswith("Verif/Spec") for f in errs):
            return True
        now = set(lost)
        for f, hs in hits(errs).items():
            for (_, _, kind, name) in hs:
                now |= deps.get(short(name), set())
        return all(any(x.startswith(t + "_") for x in now) for t in targets) if targets else bool(now)

    for rounds in range(1, 20):
        out = build(enough)
        errs = located(out)
        if not errs:
            if "build failed" in out or "error" in out:
                return {"status": "broken", "output": out[-1500:]}
            break
        if any(f.startswith("Verif/Model") or f.startswith("Verif/Spec") for f in errs):
            return {"status": "model-does-not-compile", "output": out[-1500:]}
        for f, hit in hits(errs).items():
            if not hit:
                return {"status": "unlocated", "output": out[-1500:]}
            p = os.path.join(DST, f)
            lines = open(p).read().split("\n")
            for (i, k, kind, name) in reversed(hit):
                block = "\n".join(lines[i:k]) + "\n"
                if kind != "theorem":
                    return {"status": "definition-fails", "name": name, "output": out[-1500:]}
                failed.append(name)
                lost |= deps.get(short(name), set())
                new = "" if "sorry" in block else placeholder(block)
                if new is None:
                    new = ""
                if new == "":
                    s = i
                    while s > 0 and not lines[s].startswith("/--") and s > i - 12:
                        s -= 1
                    if lines[s].startswith("/--") and not any(DECL.match(x) for x in lines[s:i]):
                        i = s
                    if lines[i - 1].rstrip().endswith(" in") and DECL.match(lines[i - 1]):
                        i -= 1
                lines[i:k] = new.split("\n")
            open(p, "w").write("\n".join(lines))
        if done():
            break
    survived = [t for t in targets if not any(x.startswith(t + "_") for x in lost)] if targets else ([] if lost else ["all"])
    return {"status": "ok", "rounds": rounds, "failed": failed, "lost": sorted(lost), "survived": survived}


def main():
    if os.environ.get("MUT_PREPARE"):
        prepare()
    deps = dependents()
    batch = json.load(open(sys.argv[1]))
    a = int(sys.argv[2]) if len(sys.argv) > 2 else 0
    b = int(sys.argv[3]) if len(sys.argv) > 3 else len(batch)
    with open(sys.argv[1] + ".out.jsonl", "a") as o:
        for n in range(a, b):
            t = time.time()
            r = run(batch[n], deps)
            r["n"] = n
            for k in ("definition", "edit", "targets"):
                r[k] = batch[n].get(k, [])
            o.write(json.dumps(r) + "\n")
            o.flush()
            print(n, r["status"], batch[n]["definition"], "survived:", r.get("survived"), "failed:", r.get("failed", r.get("name")),
                  "%.0fs" % (time.time() - t), flush=True)


if __name__ == "__main__":
    main()
