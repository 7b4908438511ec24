#!/usr/bin/env python3
"""Makes a batch of small random edits of the model for fastmutate.py.

usage: automutate.py SEED COUNT OUT.json [FILE ...]      (files of lean/Verif/Model, default: all but the generated ones)

The operators are the usual ones of mutation testing: negated conditions, swapped connectives and comparisons, changed literals,
swapped results of two cases, dropped elements, swapped operands.
"""
import json, os, random, re, sys
sys.path.insert(0, os.path.dirname(os.path.abspath(__file__)))
import mutate

SRC = os.environ.get("MUT_SRC", "/verif/lean")
SKIP = {"Data.lean", "DataTexts.lean"}
SIBLINGS = [("streamInput", "streamOutput"), ("otherInput", "otherOutput"), (".stdin", ".stdout"), ("configInput", "streamInput"),
            (".head?", ".getLast?"), ("takeWhile", "dropWhile"), (".take ", ".drop "), (".any", ".all"), (".isSome", ".isNone"),
            (".map", ".filterMap"), (".fst", ".snd"), (".1", ".2"), (".isEmpty", ".length == 1"), ("none", "some"), ("head", "tail"),
            (".valueError", ".exception"), (".keyError", ".indexError"), ("ioPrefix", "parPrefix")]


def comments(t):
    """Positions inside comments."""
    bad = set()
    for m in re.finditer(r"/-.*?-/|--[^\n]*", t, re.S):
        bad.update(range(m.start(), m.end()))
    return bad


def definitions(t):
    """[(start, end, name)] of definitions."""
    lines = t.split("\n")
    off = [0]
    for l in lines:
        off.append(off[-1] + len(l) + 1)
    out = []
    for (i, k, kind, name) in mutate.decls(lines):
        if kind in ("def",):
            out.append((off[i], off[k], name))
    return out


def edits(t):
    """All edits (start, old, new, description) of a text."""
    out = []

    def sub(rx, f, what):
        for m in re.finditer(rx, t):
            new = f(m)
            if new is not None and new != m.group(0):
                out.append((m.start(), m.group(0), new, what))
    sub(r" == ", lambda m: " != ", "== for !=")
    sub(r" != ", lambda m: " == ", "!= for ==")
    sub(r" && ", lambda m: " || ", "and becomes or")
    sub(r" \|\| ", lambda m: " && ", "or becomes and")
    sub(r" ∧ ", lambda m: " ∨ ", "and becomes or")
    sub(r" ∨ ", lambda m: " ∧ ", "or becomes and")
    sub(r" < ", lambda m: " ≤ ", "a wrong boundary")
    sub(r" ≤ ", lambda m: " < ", "a wrong boundary")
    sub(r"\btrue\b", lambda m: "false", "true becomes false")
    sub(r"\bfalse\b", lambda m: "true", "false becomes true")
    sub(r"\bif (?!let|h)([^\n]*?) then", lambda m: "if ¬ (" + m.group(1) + ") then", "a negated condition")
    sub(r"(?<=then )(\S[^\n]*?) else (\S[^\n]*)(?=\n)", lambda m: m.group(2) + " else " + m.group(1), "swapped branches")
    sub(r"(?<![\w.\"'])(\d+)(?![\w.\"'])", lambda m: str(int(m.group(1)) + 1), "a number is one too large")
    sub(r"(\b[\w.]+) \+\+ (\b[\w.]+)", lambda m: m.group(2) + " ++ " + m.group(1), "parts in the wrong order")
    sub(r" \+\+ \[[^\[\]\n]*\]", lambda m: " ++ []", "dropped elements")
    sub(r"\[[^\[\]\n]+\] \+\+ ", lambda m: "[] ++ ", "dropped elements")
    sub(r"\b(\w+) :: (\w+)\b(?= *(\n|\)|$|⟩))", lambda m: m.group(2), "a dropped element")
    sub(r"\.reverse\b", lambda m: "", "a list is not reversed")
    sub(r"\.dropLast\b", lambda m: "", "the last element is kept")
    sub(r"\.eraseDups\b|\.dedup\b", lambda m: "", "duplicates are kept")
    sub(r"\"([^\"\n\\]+)\"", lambda m: '"' + m.group(1) + 'x"', "a wrong text")
    sub(r"\"([^\"\n\\]{2,})\"", lambda m: '"' + m.group(1)[:-1] + '"', "a text without its last letter")
    sub(r"!\(?(?=[\w(])", lambda m: m.group(0)[1:], "a dropped negation")
    sub(r"\| ([^\n|=]*?) => ([^\n|]+)\n(\s*)\| ([^\n|=]*?) => ([^\n|]+)(?=\n)",
        lambda m: f"| {m.group(1)} => {m.group(5)}\n{m.group(3)}| {m.group(4)} => {m.group(2)}", "results of two cases are swapped")
    sub(r"\(([a-z]\w*) ([a-z]\w*) : ", lambda m: None, "")
    sub(r"(?<=[\w)] )\b([a-z]\w*'?) ([a-z]\w*'?)\b(?=\)|\n)", lambda m: m.group(2) + " " + m.group(1), "swapped arguments")
    for a, b in SIBLINGS:
        for x, y in ((a, b), (b, a)):
            sub(re.escape(x) + r"(?![\w])", lambda m: y, f"{y.strip()} instead of {x.strip()}")
    sub(r"\.filter \([^()\n]*\)", lambda m: "", "nothing is filtered out")
    sub(r"(?<=← )(\w+)\.mapM", lambda m: m.group(1) + ".reverse.mapM", "the wrong order")
    return out


def main():
    seed, count, target = int(sys.argv[1]), int(sys.argv[2]), sys.argv[3]
    files = sys.argv[4:] or sorted(f for f in os.listdir(SRC + "/Verif/Model") if f not in SKIP)
    rnd = random.Random(seed)
    pool = {}
    for f in files:
        t = mutate.adapt("Verif/Model", f, open(f"{SRC}/Verif/Model/{f}").read())
        bad = comments(t)
        ds = definitions(t)
        for (s, old, new, what) in edits(t):
            if s in bad:
                continue
            d = [name for (a, b, name) in ds if a <= s < b]
            if not d:
                continue
            line = t.count("\n", 0, s) + 1
            pool.setdefault((f, d[0]), []).append(dict(
                file="Verif/Model/" + f, definition=d[0], start=s, old=old, new=new,
                edit=f"{what} ({f}:{line}: {old.strip()!r} becomes {new.strip()!r})", claim="", targets=[]))
    # one edit of each definition in turn, in random order
    keys = list(pool)
    batch = []
    while keys and len(batch) < count:
        rnd.shuffle(keys)
        for k in list(keys):
            batch.append(pool[k].pop(rnd.randrange(len(pool[k]))))
            if not pool[k]:
                keys.remove(k)
            if len(batch) == count:
                break
    json.dump(batch, open(target, "w"), indent=1, ensure_ascii=False)
    print(len(batch), "edits of", len({(b["file"], b["definition"]) for b in batch}), "definitions")


if __name__ == "__main__":
    main()
