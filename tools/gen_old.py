#!/usr/bin/env python3
"""Write lean/Verif/Model/OldData.lean: the annotations in /repo/pash_annotations/old_annotations, literally."""
import glob, json, os, sys

root = "/repo/pash_annotations/old_annotations"
out = sys.argv[1] if len(sys.argv) > 1 else os.path.join(os.path.dirname(__file__), "../lean/Verif/Model/OldData.lean")

def text(s): return json.dumps(s)
def texts(l): return "[" + ", ".join(map(text, l)) + "]"

def predicate(p):
    if p == "default": return ".otherwise"
    op, args = p["operator"], p["operands"]
    if op == "exists": return "(.given %s)" % texts(args)
    if op == "!exists": return "(.notGiven %s)" % texts(args)
    if op in ("val_opt_eq", "value"): return "(.value %s %s)" % (texts(args[:-1]), text(args[-1]))
    if op == "len_args_eq": return "(.arguments %d)" % args[0]
    if op == "and":
        assert len(args) == 2
        return "(.both %s %s)" % tuple(map(predicate, args))
    raise ValueError(op)

classes = {"stateless": ".stateless", "parallelizable_pure": ".parallelizablePure", "pure": ".pureOnly", "side-effectful": ".sideEffectful",
           "side-effects": ".sideEffectful", "non-pure": ".sideEffectful"}

def aggregator(a):
    if a is None: return "none"
    return "some (%s, %s)" % (text(a.get("name", a.get("path"))), texts(a.get("options", [])))

def mapper(m):
    return "none" if m is None else "some (%s, %d)" % (text(m["name"]), m["num_outputs"])

def stream(s):
    if s in ("stdin", "stdout"): return "." + s
    assert s[:5] == "args[" and s[-1] == "]"
    if ":" not in s: return "(.arg %d)" % int(s[5:-1])
    return "(.args %s)" % " ".join("(some %d)" % int(x) if x else "none" for x in s[5:-1].split(":"))

def streams(c, d):
    i = c.get("inputs", [])
    i, g = (i, []) if isinstance(i, list) else (i["standard"], i["configuration"])
    hyphen = any("stdin-hyphen" in x.get("options", []) for x in (c, d))
    return "⟨%s, %s⟩" % (", ".join("[%s]" % ", ".join(map(stream, l)) for l in (i, g, c.get("outputs", []))), "true" if hyphen else "false")

lines = ['import Verif.Model.Old', '', '/-! Generated by tools/gen_old.py from the files in /repo/pash_annotations/old_annotations: one entry per file. -/', '',
         'namespace PashAnn', '', '/-- The files in old_annotations/*.json and old_annotations/custom_aggregators/*.json, in the order of their names.',
         'Comments, options other than `stdin-hyphen`, and the entries `aggregate` and `agg` are left out. -/', 'def oldAnnotations : List OldAnnotation := [']
items = []
for f in sorted(glob.glob(root + "/*.json") + glob.glob(root + "/custom_aggregators/*.json")):
    d = json.load(open(f))
    cases = ",\n    ".join("⟨%s, %s, %s, %s, %s, %s⟩" % (predicate(c["predicate"]), classes[c["class"]], aggregator(c.get("aggregator")),
                           mapper(c.get("mapper")), "true" if "commutative" in c.get("properties", []) else "false", streams(c, d)) for c in d["cases"])
    items.append("  ⟨%s, [\n    %s]⟩" % (text(d["command"]), cases))
lines.append(",\n".join(items) + "]")
lines += ['', 'end PashAnn', '']
open(out, "w").write("\n".join(lines))
