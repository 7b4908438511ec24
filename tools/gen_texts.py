#!/usr/bin/env python3
"""Copies parser/command_flag_option_info/data/*.json, letter by letter, into lean/Verif/Model/DataTexts.lean (or the file given)."""
import glob, os, sys
SRC = "/repo/pash_annotations/parser/command_flag_option_info/data"
HERE = os.path.dirname(os.path.dirname(os.path.abspath(__file__)))
out = ["""/-!
GENERATED by tools/gen_texts.py: the texts of /repo/pash_annotations/parser/command_flag_option_info/data/*.json, copied letter by
letter as raw strings, one for each line; what follows the last line end is the last string.
-/

namespace PashAnn.DataTexts
"""]
names = []
for fn in sorted(glob.glob(SRC + "/*.json")):
    base = os.path.basename(fn)[:-5]
    t = open(fn, newline="").read()
    assert '"#' not in t and "\r" not in t
    lines = ",\n  ".join(f'r#"{l}"#' for l in t.split("\n"))
    out.append(f'/-- data/{base}.json -/\ndef t_{base.lstrip("_")} : List String := [\n  {lines}]\n')
    names.append(base)
out.append("""/-- The text with these lines. For the files that util_parser.py:9 reads. -/
def join : List String → List Char
  | [] => []
  | [l] => l.toList
  | l :: ls => l.toList ++ '\\n' :: join ls
""")
out.append("/-- The files in the data directory, by name without .json. For the files that util_parser.py:9 reads. -/\ndef table : List (String × List String) := [\n" +
           ",\n".join(f'  ("{b}", t_{b.lstrip("_")})' for b in names) + "]\n\nend PashAnn.DataTexts\n")
dst = sys.argv[1] if len(sys.argv) > 1 else os.path.join(HERE, "lean/Verif/Model/DataTexts.lean")
open(dst, "w").write("\n".join(out))
