#!/usr/bin/env python3
"""Transcribes parser/command_flag_option_info/data/*.json into lean/Verif/Model/Data.lean.

Checks the schema the Lean types rely on: "flag" is a list whose entries are a bare string or a list of
strings; "option" is a list of lists: one or more strings, then a string or a pair of strings."""
import glob, json, os
SRC = "/repo/pash_annotations/parser/command_flag_option_info/data"
HERE = os.path.dirname(os.path.dirname(os.path.abspath(__file__)))
def q(s):
    assert isinstance(s, str) and all(32 <= ord(c) < 127 for c in s), s
    return '"' + s.replace("\\", "\\\\").replace('"', '\\"') + '"'
def ql(l): return "[" + ", ".join(q(x) for x in l) + "]"
out = ["""import Verif.Model.Py

/-!
GENERATED by tools/gen_data.py from /repo/pash_annotations/parser/command_flag_option_info/data/*.json.
One definition per JSON file, entries in file order. Keys other than "flag" and "option" ("comment") are
never read by the code and are dropped.
-/

namespace PashAnn

/-- An entry of the "flag" list of a data file: a list of synonyms, or (only in uniq.json, lines 14, 19, 28)
a bare string, over which the Python code iterates character by character (parser.py:84-86). -/
inductive FlagEntry where
  | group (names : List String)
  | bare (s : String)
deriving DecidableEq, Repr

/-- Last element of an entry of the "option" list: a plain word, or a pair of word and access kind
(InputOutputInfoGenerator_Interface.py:70-85). -/
inductive ArgInfo where
  | word (kind : String)
  | withAccess (kind access : String)
deriving DecidableEq, Repr

/-- An entry of the "option" list: the spellings (all elements but the last) and the argument information
(the last element), see parser.py:77 and parser.py:100. -/
structure OptionEntry where
  names : List String
  arg : ArgInfo
deriving DecidableEq, Repr

/-- The two keys of a data file that the code reads (parser.py:76, 84, 92, 99). -/
structure JsonData where
  flag : List FlagEntry
  option : List OptionEntry
deriving DecidableEq, Repr

namespace Data
"""]
names = []
for fn in sorted(glob.glob(SRC + "/*.json")):
    base = os.path.basename(fn)[:-5]
    d = json.load(open(fn))
    assert set(d) <= {"flag", "option", "comment"} and "flag" in d and "option" in d, fn
    fl, op = [], []
    for e in d["flag"]:
        if isinstance(e, str): fl.append(f".bare {q(e)}")
        else:
            assert isinstance(e, list) and e, e
            fl.append(f".group {ql(e)}")
    for e in d["option"]:
        assert isinstance(e, list) and len(e) >= 2, e
        last = e[-1]
        if isinstance(last, list):
            assert len(last) == 2
            a = f".withAccess {q(last[0])} {q(last[1])}"
        else: a = f".word {q(last)}"
        op.append(f"⟨{ql(e[:-1])}, {a}⟩")
    lean = "d" + base if base.startswith("_") else "d_" + base
    names.append((base, lean))
    out.append(f"/-- {base}.json -/\ndef {lean} : JsonData where\n  flag := [" + ",\n    ".join(fl) + "]\n  option := [" + ",\n    ".join(op) + "]\n")
out.append("/-- The content of the data directory: file name without .json, and content. They are read in util_parser.py:9. -/\ndef table : List (String × JsonData) := [\n  " +
           ",\n  ".join(f"({q(b)}, {l})" for b, l in names) + "]\n")
out.append("end Data\nend PashAnn\n")
open(os.path.join(HERE, "lean/Verif/Model/Data.lean"), "w").write("\n".join(out))
print(len(names), "files")
