#!/usr/bin/env python3
"""Translates the assertions in the test files of the repository to Lean (Verif/Check/RepoTests.lean).

Every statement of every test function has to be known here, otherwise this script stops; so no assertion is left out.
"""
import ast, glob, os, sys
R = "/repo/pash_annotations/"
FILES = sorted(glob.glob(R + "parser/tests/test_*.py")) + sorted(glob.glob(R + "annotation_generation/tests/test_*.py"))

def lit(s):
    out = '"'
    for c in s:
        out += {'"': '\\"', '\\': '\\\\', '\n': '\\n', '\t': '\\t'}.get(c, c)
    return out + '"'

def word(e):
    """A string, possibly wrapped as FileName or ArgStringType or Operand."""
    if isinstance(e, ast.Constant) and isinstance(e.value, str): return lit(e.value)
    assert isinstance(e, ast.Call) and e.func.id in ("FileName", "ArgStringType", "Operand") and len(e.args) == 1, ast.dump(e)
    return word(e.args[0])

def arg(e):
    assert e.func.id == "make_arg_simple"
    ws = [word(x) for x in e.args[0].elts]
    assert len(ws) in (1, 2)
    return "(.flag %s)" % ws[0] if len(ws) == 1 else "(.option %s %s)" % tuple(ws)

GETTERS = {"get_operands_with_config_input": "getOperandsWithConfigInput", "get_operands_with_stream_input": "getOperandsWithStreamInput",
    "get_operands_with_stream_output": "getOperandsWithStreamOutput", "get_operands_with_other_input": "getOperandsWithOtherInput",
    "get_operands_with_other_output": "getOperandsWithOtherOutput", "get_options_with_other_output": "getOptionsWithOtherOutput"}
STREAMS = {"implicit_use_of_streaming_input": "implicitInput", "implicit_use_of_streaming_output": "implicitOutput"}
MADE = {"make_stdout_with_access_output": "some (.std .stdout .streamOutput)", "make_stdin_with_access_stream_input": "some (.std .stdin .streamInput)"}
SPLIT = {"make_splitter_consec_chunks": ".consecChunks", "make_splitter_round_robin": ".roundRobinPlain", "make_splitter_indiv_files": ".indivFiles"}

class Test:
    def __init__(self, cmd):
        self.env = {"cmd_name": lit(cmd) if cmd else None}
        self.io, self.out = [], []
        self.untyped = False

    def value(self, e):
        if isinstance(e, ast.Name): return self.env[e.id]
        if isinstance(e, ast.Constant):
            if isinstance(e.value, bool): return "true" if e.value else "false"
            if isinstance(e.value, str): return lit(e.value)
        if isinstance(e, ast.List):
            if not e.elts: return "[]"
            f = e.elts[0].func.id if isinstance(e.elts[0], ast.Call) else None
            if f == "make_arg_simple": return "[%s]" % ", ".join(arg(x) for x in e.elts)
            if f in ("Operand", None): return "[%s]" % ", ".join(word(x) for x in e.elts)
            if f == "Flag": return "[%s]" % ", ".join("(.flag %s)" % word(x.args[0]) for x in e.elts)
            return "[%s]" % ", ".join(self.value(x) for x in e.elts)
        if isinstance(e, ast.Call):
            n = e.func.id if isinstance(e.func, ast.Name) else None
            kw = {k.arg: k.value for k in e.keywords}
            if n == "parse": return "parse %s" % lit(e.args[0].value)
            if n == "CommandInvocationInitial":
                a = [self.value(x) for x in e.args] + [self.value(kw[k]) for k in ("flag_option_list", "operand_list") if k in kw]
                assert len(a) == 3
                return "⟨%s, %s, %s⟩" % tuple(a)
            if n == "CommandInvocationPrefix": return None
            if n == "make_mapper_spec_seq": return "MapperSpec.makeSeq"
            if n == "make_aggregator_spec_concatenate": return "AggregatorSpec.makeConcatenate"
            if n == "make_aggregator_spec_adj_lines_merge": return "AggregatorSpec.makeAdjLinesMerge"
            if n == "make_aggregator_spec_adj_lines_seq": return "AggregatorSpec.makeAdjLinesSeq"
            if n == "make_aggregator_spec_adj_lines_func_from_string_representation":
                impl = kw["is_implemented"] if "is_implemented" in kw else e.args[1]
                return "AggregatorSpec.makeAdjLinesFuncFromString %s %s" % (lit(e.args[0].value), self.value(impl))
            if n == "make_aggregator_spec_custom_2_ary_from_cmd_inv_with_transformers":
                return "AggregatorSpec.makeCustom2AryFromTransformers (some %s) %s" % (
                    self.value(kw["flag_option_list_transformer"]), self.value(kw["is_implemented"]))
            if n == "TransformerFlagOptionListFilter": return "(.filter %s)" % self.value(e.args[0])
            if n == "TransformerFlagOptionListAdd": return "(.add %s)" % self.value(e.args[0])
            if n == "ChainTransformerFlagOptionList": return "(.chain [%s])" % ", ".join(self.value(x) for x in e.args[0].elts)
            if isinstance(e.func, ast.Attribute): 
                if e.func.attr == "get_input_output_info_from_cmd_invocation":
                    assert e.args[0].id == "cmd_inv"; return "IO"
                if e.func.attr == "apply_input_output_info_to_command_invocation":
                    assert e.func.value.id == "io_info" and e.args[0].id == "cmd_inv"; return "APPLIED"
                if e.func.attr == "get_parallelizability_info_from_cmd_invocation":
                    assert e.args[0].id == "cmd_inv"; return "PARA"
        if isinstance(e, ast.Subscript):
            assert ast.unparse(e.value) == "para_info.parallelizer_list"
            return e.slice.value
        raise Exception(ast.dump(e))

    def check(self, t):
        u = ast.unparse(t)
        inv = self.env.get("cmd_inv")
        if u == "expected_result == parser_result":
            return self.out.append("%s = .ok %s := by decide +kernel" % (self.env["parser_result"], self.env["expected_result"]))
        if u == "io_info is not None": return self.out.append("(getInputOutputInfo %s).isSome = true := by decide +kernel" % inv)
        if u == "io_info is None": return self.out.append("(getInputOutputInfo %s).isNone = true := by decide +kernel" % inv)
        if u == "para_info is None": return self.out.append("(getParallelizabilityInfo %s).isNone = true := by decide +kernel" % inv)
        if isinstance(t, ast.BoolOp):
            assert isinstance(t.op, ast.And) and ast.unparse(t.values[0]) == "para_info is not None" and len(t.values) == 2
            c = t.values[1]
            assert ast.unparse(c.left) == "len(para_info.parallelizer_list)" and isinstance(c.ops[0], ast.Eq)
            return self.out.append("(getParallelizabilityInfo %s).map (·.parallelizerList.length) = some %d := by decide +kernel" % (
                inv, c.comparators[0].value))
        assert isinstance(t, ast.Compare) and len(t.ops) == 1
        l, op, r = t.left, t.ops[0], t.comparators[0]
        if isinstance(l, ast.Call) and isinstance(l.func, ast.Name) and l.func.id == "len":
            g = l.args[0]
            assert g.func.value.id == "cmd_inv_with_io" and isinstance(op, ast.Eq)
            return self.out.append("(typedTest %s).map (·.%s.length) = some %d := by decide +kernel" % (inv, GETTERS[g.func.attr], r.value))
        if isinstance(l, ast.Attribute) and l.attr in STREAMS:
            assert l.value.id == "cmd_inv_with_io"
            if isinstance(op, ast.Is): assert r.value is None; v = "none"
            else: assert isinstance(op, ast.Eq); v = MADE[r.func.id]
            return self.out.append("(typedTest %s).map (·.%s) = some (%s) := by decide +kernel" % (inv, STREAMS[l.attr], v))
        if isinstance(l, ast.Call) and isinstance(l.func, ast.Attribute):
            assert isinstance(op, ast.Eq)
            n = self.env[l.func.value.id]
            assert isinstance(n, int)
            pre = "(planTest %s %d)" % (inv, n)
            if l.func.attr == "get_splitter":
                return self.out.append("%s.map (·.splitter) = some %s := by decide +kernel" % (pre, SPLIT[r.func.id]))
            f = {"get_mapper_spec": "coreMapperSpec", "get_aggregator_spec": "coreAggregatorSpec"}[l.func.attr]
            return self.out.append("%s.map (·.%s) = some (%s) := rfl" % (pre, f, self.value(r)))
        raise Exception(u)

    def stmt(self, s):
        if isinstance(s, ast.Expr) and isinstance(s.value, ast.Constant): return
        if isinstance(s, ast.Assign): 
            assert len(s.targets) == 1
            self.env[s.targets[0].id] = self.value(s.value)
        elif isinstance(s, ast.AnnAssign): self.env[s.target.id] = self.value(s.value)
        elif isinstance(s, ast.Assert): self.check(s.test)
        else: raise Exception(ast.dump(s))

out = ["import Verif.Model.ParGenerators", "", "/-!",
"Generated by tools/gen_tests.py: the assertions in the test files of the repository, about the model. They are not proofs of any",
"property; they compare the translation to Lean with what the authors of the code say that it does. Every assertion of every test is",
"here. The tests also make option arguments with `FileName` and `ArgStringType`; the model has strings there.", "-/", "",
"namespace PashAnn", "",
"/-- `io_info.apply_input_output_info_to_command_invocation(cmd_inv)`, as in the tests (annotation_generation/tests). -/",
"def typedTest (inv : CommandInvocationInitial) : Option CommandInvocationWithIO :=",
"  match getInputOutputInfo inv with",
"  | none => none",
"  | some i => (i.apply inv).toOption", "",
"/-- `para_info.parallelizer_list[n]`, as in the tests (annotation_generation/tests). -/",
"def planTest (inv : CommandInvocationInitial) (n : Nat) : Option Parallelizer :=",
"  (getParallelizabilityInfo inv).bind fun i => i.parallelizerList[n]?", ""]
tests = asserts = 0
for f in FILES:
    tree = ast.parse(open(f).read())
    cmd = None
    for s in tree.body:
        if isinstance(s, ast.Assign) and s.targets[0].id == "cmd_name": cmd = s.value.value
    for s in tree.body:
        if isinstance(s, ast.FunctionDef):
            t = Test(cmd)
            n = 0
            for x in s.body:
                t.stmt(x)
                n += isinstance(x, ast.Assert)
            assert n == len(t.out)
            tests += 1; asserts += n
            out.append("/-! %s:%d `%s` -/" % (os.path.relpath(f, R), s.lineno, s.name))
            out += ["example : " + x for x in t.out] + [""]
        else: assert isinstance(s, (ast.Import, ast.ImportFrom, ast.Assign)) or (isinstance(s, ast.Expr) and isinstance(s.value, ast.Constant))
out += ["end PashAnn"]
open(sys.argv[1], "w").write("\n".join(out) + "\n")
print(tests, "tests", asserts, "assertions")
