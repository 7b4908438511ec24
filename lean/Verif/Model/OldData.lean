import Verif.Model.Old

/-! Generated by tools/gen_old.py from the files in /repo/pash_annotations/old_annotations: one entry per file. -/

namespace PashAnn

/-- The files in old_annotations/*.json and old_annotations/custom_aggregators/*.json, in the order of their names.
Comments, options other than `stdin-hyphen`, and the entries `aggregate` and `agg` are left out. -/
def oldAnnotations : List OldAnnotation := [
  ⟨"alt_bigram_aux_reduce", [
    ⟨.otherwise, .pureOnly, none, none, false, ⟨[(.args none none)], [], [.stdout], false⟩⟩]⟩,
  ⟨"alt_bigrams_aux", [
    ⟨.otherwise, .parallelizablePure, some ("alt_bigram_aux_reduce", []), none, false, ⟨[.stdin], [], [.stdout], false⟩⟩]⟩,
  ⟨"auto-split.sh", [
    ⟨.otherwise, .pureOnly, none, none, false, ⟨[(.arg 0)], [], [(.args (some 1) none)], false⟩⟩]⟩,
  ⟨"awk", [
    ⟨.otherwise, .pureOnly, none, none, false, ⟨[.stdin], [], [.stdout], false⟩⟩]⟩,
  ⟨"bc", [
    ⟨.otherwise, .stateless, none, none, false, ⟨[.stdin], [], [.stdout], false⟩⟩]⟩,
  ⟨"bigram_aux_map", [
    ⟨.otherwise, .pureOnly, none, none, false, ⟨[(.arg 0)], [], [(.args (some 1) (some 4))], false⟩⟩]⟩,
  ⟨"bigram_aux_reduce", [
    ⟨.otherwise, .pureOnly, none, none, false, ⟨[(.args none (some 6))], [], [(.args (some 6) none)], false⟩⟩]⟩,
  ⟨"bigrams_aux", [
    ⟨.otherwise, .parallelizablePure, some ("bigram_aux_reduce", []), some ("bigram_aux_map", 3), false, ⟨[.stdin], [], [.stdout], false⟩⟩]⟩,
  ⟨"cat", [
    ⟨(.given ["-n"]), .pureOnly, none, none, false, ⟨[(.args none none)], [], [.stdout], true⟩⟩,
    ⟨(.arguments 0), .stateless, none, none, false, ⟨[.stdin], [], [.stdout], true⟩⟩,
    ⟨.otherwise, .stateless, none, none, false, ⟨[(.args none none)], [], [.stdout], true⟩⟩]⟩,
  ⟨"chmod", [
    ⟨.otherwise, .sideEffectful, none, none, false, ⟨[.stdin], [], [.stdout], false⟩⟩]⟩,
  ⟨"col", [
    ⟨.otherwise, .stateless, none, none, false, ⟨[.stdin], [], [.stdout], false⟩⟩]⟩,
  ⟨"comm", [
    ⟨.otherwise, .pureOnly, none, none, false, ⟨[(.args none none)], [], [.stdout], true⟩⟩]⟩,
  ⟨"convert", [
    ⟨.otherwise, .pureOnly, none, none, false, ⟨[(.arg 1)], [], [(.arg 2)], false⟩⟩]⟩,
  ⟨"cat.py", [
    ⟨.otherwise, .pureOnly, none, none, false, ⟨[(.args none none)], [], [.stdout], false⟩⟩]⟩,
  ⟨"concat.sh", [
    ⟨.otherwise, .pureOnly, none, none, false, ⟨[(.args none none)], [], [.stdout], false⟩⟩]⟩,
  ⟨"custom_sort", [
    ⟨(.given ["-m"]), .pureOnly, none, none, false, ⟨[(.args none none)], [], [.stdout], false⟩⟩,
    ⟨.otherwise, .parallelizablePure, some ("sort", ["-m"]), none, true, ⟨[.stdin], [], [.stdout], false⟩⟩]⟩,
  ⟨"custom_tr", [
    ⟨.otherwise, .stateless, none, none, false, ⟨[.stdin], [], [.stdout], false⟩⟩]⟩,
  ⟨"cut", [
    ⟨(.both (.value ["-d", "--delimiter"] "\n") (.given ["-f", "--fields"])), .pureOnly, none, none, false, ⟨[.stdin], [], [.stdout], false⟩⟩,
    ⟨.otherwise, .stateless, none, none, false, ⟨[.stdin], [], [.stdout], false⟩⟩]⟩,
  ⟨"date", [
    ⟨.otherwise, .pureOnly, none, none, false, ⟨[.stdin], [], [.stdout], false⟩⟩]⟩,
  ⟨"dd", [
    ⟨.otherwise, .sideEffectful, none, none, false, ⟨[.stdin], [], [.stdout], false⟩⟩]⟩,
  ⟨"dfs_split_reader.sh", [
    ⟨.otherwise, .pureOnly, none, none, false, ⟨[(.arg 0)], [], [.stdout], false⟩⟩]⟩,
  ⟨"dgsh_tee.sh", [
    ⟨.otherwise, .pureOnly, none, none, false, ⟨[(.arg 0)], [], [(.arg 1)], false⟩⟩]⟩,
  ⟨"diff", [
    ⟨.otherwise, .pureOnly, none, none, false, ⟨[(.args none none)], [], [.stdout], false⟩⟩]⟩,
  ⟨"eager-no-task-par.sh", [
    ⟨.otherwise, .pureOnly, none, none, false, ⟨[(.arg 0)], [], [(.arg 1)], false⟩⟩]⟩,
  ⟨"eager.sh", [
    ⟨.otherwise, .pureOnly, none, none, false, ⟨[(.arg 0)], [], [(.arg 1)], false⟩⟩]⟩,
  ⟨"echo", [
    ⟨.otherwise, .pureOnly, none, none, false, ⟨[], [], [.stdout], false⟩⟩]⟩,
  ⟨"export", [
    ⟨.otherwise, .sideEffectful, none, none, false, ⟨[.stdin], [], [.stdout], false⟩⟩]⟩,
  ⟨"extract_text", [
    ⟨.otherwise, .stateless, none, none, false, ⟨[.stdin], [], [.stdout], false⟩⟩]⟩,
  ⟨"ffmpeg", [
    ⟨.otherwise, .pureOnly, none, none, false, ⟨[(.args none none)], [], [.stdout], true⟩⟩]⟩,
  ⟨"find", [
    ⟨.otherwise, .sideEffectful, none, none, false, ⟨[(.args none none)], [], [.stdout], false⟩⟩]⟩,
  ⟨"fmt", [
    ⟨(.given ["-w1"]), .stateless, none, none, false, ⟨[.stdin], [], [.stdout], false⟩⟩,
    ⟨.otherwise, .pureOnly, none, none, false, ⟨[.stdin], [], [.stdout], false⟩⟩]⟩,
  ⟨"grep", [
    ⟨(.given ["-c"]), .pureOnly, none, none, false, ⟨[.stdin], [], [.stdout], false⟩⟩,
    ⟨(.arguments 1), .stateless, none, none, false, ⟨[.stdin], [], [.stdout], false⟩⟩,
    ⟨(.given ["-r", "--recursive", "-R", "--dereference-recursive"]), .sideEffectful, none, none, false, ⟨[], [], [], false⟩⟩,
    ⟨.otherwise, .stateless, none, none, false, ⟨[(.args none none)], [], [.stdout], false⟩⟩]⟩,
  ⟨"groff", [
    ⟨.otherwise, .stateless, none, none, false, ⟨[.stdin], [], [.stdout], false⟩⟩]⟩,
  ⟨"gunzip", [
    ⟨.otherwise, .stateless, none, none, false, ⟨[.stdin], [], [.stdout], false⟩⟩]⟩,
  ⟨"gzip", [
    ⟨.otherwise, .stateless, none, none, false, ⟨[.stdin], [], [.stdout], false⟩⟩]⟩,
  ⟨"hdfs", [
    ⟨(.given ["-cat"]), .stateless, none, none, false, ⟨[(.arg 1)], [], [.stdout], false⟩⟩,
    ⟨.otherwise, .sideEffectful, none, none, false, ⟨[.stdin], [], [.stdout], false⟩⟩]⟩,
  ⟨"head", [
    ⟨.otherwise, .pureOnly, none, none, false, ⟨[.stdin], [], [.stdout], false⟩⟩]⟩,
  ⟨"history", [
    ⟨.otherwise, .sideEffectful, none, none, false, ⟨[], [], [.stdout], false⟩⟩]⟩,
  ⟨"iconv", [
    ⟨.otherwise, .pureOnly, none, none, false, ⟨[.stdin], [], [.stdout], false⟩⟩]⟩,
  ⟨"jobs", [
    ⟨.otherwise, .stateless, none, none, false, ⟨[.stdin], [], [.stdout], false⟩⟩]⟩,
  ⟨"ls", [
    ⟨.otherwise, .sideEffectful, none, none, false, ⟨[.stdin], [], [.stdout], false⟩⟩]⟩,
  ⟨"mkfifo", [
    ⟨.otherwise, .sideEffectful, none, none, false, ⟨[.stdin], [], [.stdout], false⟩⟩]⟩,
  ⟨"mktemp", [
    ⟨.otherwise, .sideEffectful, none, none, false, ⟨[.stdin], [], [.stdout], false⟩⟩]⟩,
  ⟨"multiply.sh", [
    ⟨.otherwise, .pureOnly, none, none, false, ⟨[.stdin], [], [.stdout], false⟩⟩]⟩,
  ⟨"nc", [
    ⟨.otherwise, .sideEffectful, none, none, false, ⟨[.stdin], [], [.stdout], false⟩⟩]⟩,
  ⟨"nl", [
    ⟨.otherwise, .pureOnly, none, none, false, ⟨[.stdin], [], [.stdout], false⟩⟩]⟩,
  ⟨"package_build_aux", [
    ⟨.otherwise, .pureOnly, none, none, false, ⟨[(.arg 0)], [], [.stdout], false⟩⟩]⟩,
  ⟨"pandoc", [
    ⟨.otherwise, .sideEffectful, none, none, false, ⟨[(.args none none)], [], [.stdout], false⟩⟩]⟩,
  ⟨"paste", [
    ⟨.otherwise, .pureOnly, none, none, false, ⟨[(.args none none)], [], [.stdout], true⟩⟩]⟩,
  ⟨"pr", [
    ⟨(.both (.given ["-T, --omit-pagination"]) (.notGiven ["integer"])), .stateless, none, none, false, ⟨[.stdin], [], [.stdout], false⟩⟩,
    ⟨.otherwise, .pureOnly, none, none, false, ⟨[.stdin], [], [.stdout], false⟩⟩]⟩,
  ⟨"process_bio_s_line", [
    ⟨.otherwise, .pureOnly, none, none, false, ⟨[(.arg 0)], [], [.stdout], false⟩⟩]⟩,
  ⟨"ps", [
    ⟨.otherwise, .stateless, none, none, false, ⟨[.stdin], [], [.stdout], false⟩⟩]⟩,
  ⟨"pwd", [
    ⟨.otherwise, .sideEffectful, none, none, false, ⟨[], [], [.stdout], false⟩⟩]⟩,
  ⟨"r_merge", [
    ⟨.otherwise, .stateless, none, none, false, ⟨[(.args none none)], [], [.stdout], true⟩⟩]⟩,
  ⟨"r_split", [
    ⟨.otherwise, .pureOnly, none, none, false, ⟨[(.arg 0)], [], [(.args (some 2) none)], false⟩⟩]⟩,
  ⟨"r_unwrap", [
    ⟨.otherwise, .pureOnly, none, none, false, ⟨[.stdin], [], [.stdout], false⟩⟩]⟩,
  ⟨"r_wrap", [
    ⟨.otherwise, .pureOnly, none, none, false, ⟨[.stdin], [], [.stdout], false⟩⟩]⟩,
  ⟨"read", [
    ⟨.otherwise, .sideEffectful, none, none, false, ⟨[.stdin], [], [.stdout], false⟩⟩]⟩,
  ⟨"readelf", [
    ⟨.otherwise, .pureOnly, none, none, false, ⟨[(.args none none)], [], [.stdout], false⟩⟩]⟩,
  ⟨"remote_read.sh", [
    ⟨.otherwise, .pureOnly, none, none, false, ⟨[], [], [.stdout], false⟩⟩]⟩,
  ⟨"remote_write.sh", [
    ⟨.otherwise, .pureOnly, none, none, false, ⟨[.stdin], [], [.stdout], false⟩⟩]⟩,
  ⟨"comm", [
    ⟨.otherwise, .pureOnly, none, none, false, ⟨[(.args none none)], [], [.stdout], true⟩⟩]⟩,
  ⟨"rev", [
    ⟨.otherwise, .stateless, none, none, false, ⟨[.stdin], [], [.stdout], false⟩⟩]⟩,
  ⟨"rm", [
    ⟨.otherwise, .sideEffectful, none, none, false, ⟨[.stdin], [], [.stdout], false⟩⟩]⟩,
  ⟨"run_tests", [
    ⟨.otherwise, .pureOnly, none, none, false, ⟨[(.arg 0)], [], [.stdout], false⟩⟩]⟩,
  ⟨"sed", [
    ⟨.otherwise, .pureOnly, none, none, false, ⟨[.stdin], [], [.stdout], false⟩⟩]⟩,
  ⟨"seq", [
    ⟨.otherwise, .pureOnly, none, none, false, ⟨[], [], [.stdout], false⟩⟩]⟩,
  ⟨"set", [
    ⟨.otherwise, .sideEffectful, none, none, false, ⟨[.stdin], [], [.stdout], false⟩⟩]⟩,
  ⟨"set_diff", [
    ⟨.otherwise, .stateless, none, none, false, ⟨[.stdin], [(.arg 0)], [.stdout], false⟩⟩]⟩,
  ⟨"sha256sum", [
    ⟨.otherwise, .sideEffectful, none, none, false, ⟨[.stdin], [], [.stdout], false⟩⟩]⟩,
  ⟨"shuf", [
    ⟨.otherwise, .stateless, none, none, false, ⟨[.stdin], [], [.stdout], false⟩⟩]⟩,
  ⟨"sort", [
    ⟨(.given ["-m"]), .pureOnly, none, none, false, ⟨[(.args none none)], [], [.stdout], false⟩⟩,
    ⟨.otherwise, .parallelizablePure, some ("sort", ["-m"]), none, true, ⟨[.stdin], [], [.stdout], false⟩⟩]⟩,
  ⟨"split", [
    ⟨.otherwise, .sideEffectful, none, none, false, ⟨[(.args none none)], [], [.stdout], false⟩⟩]⟩,
  ⟨"stem-words.js", [
    ⟨.otherwise, .stateless, none, none, false, ⟨[.stdin], [], [.stdout], false⟩⟩]⟩,
  ⟨"tac", [
    ⟨.otherwise, .stateless, none, none, false, ⟨[(.args none none)], [], [.stdout], true⟩⟩]⟩,
  ⟨"tail", [
    ⟨.otherwise, .pureOnly, none, none, false, ⟨[.stdin], [], [.stdout], false⟩⟩]⟩,
  ⟨"tee", [
    ⟨.otherwise, .pureOnly, none, none, false, ⟨[.stdin], [], [.stdout, (.args none none)], false⟩⟩]⟩,
  ⟨"test_one", [
    ⟨.otherwise, .parallelizablePure, some ("runtime/agg/opt/concat.sh", []), none, false, ⟨[.stdin], [], [.stdout], false⟩⟩]⟩,
  ⟨"test_two", [
    ⟨.otherwise, .parallelizablePure, some ("runtime/agg/py/cat.py", []), none, false, ⟨[.stdin], [], [.stdout], false⟩⟩]⟩,
  ⟨"test_uniq_1", [
    ⟨.otherwise, .parallelizablePure, some ("runtime/agg/bin/uniq", []), none, false, ⟨[.stdin], [], [.stdout], false⟩⟩]⟩,
  ⟨"test_uniq_2", [
    ⟨.otherwise, .parallelizablePure, some ("runtime/agg/bin/uniq", ["-c"]), none, false, ⟨[.stdin], [], [.stdout], false⟩⟩]⟩,
  ⟨"tr", [
    ⟨(.given ["-d", "--delete"]), .stateless, none, none, false, ⟨[.stdin], [], [.stdout], false⟩⟩,
    ⟨(.given ["-s", "--squeeze-repeats"]), .pureOnly, none, none, false, ⟨[.stdin], [], [.stdout], false⟩⟩,
    ⟨.otherwise, .stateless, none, none, false, ⟨[.stdin], [], [.stdout], false⟩⟩]⟩,
  ⟨"trigrams_aux", [
    ⟨.otherwise, .pureOnly, none, none, false, ⟨[.stdin], [], [.stdout], false⟩⟩]⟩,
  ⟨"uniq", [
    ⟨.otherwise, .pureOnly, none, none, false, ⟨[.stdin], [], [.stdout], false⟩⟩]⟩,
  ⟨"wc", [
    ⟨.otherwise, .pureOnly, none, none, false, ⟨[.stdin], [], [.stdout], false⟩⟩]⟩,
  ⟨"xargs", [
    ⟨(.value ["-L"] "1"), .stateless, none, none, false, ⟨[.stdin], [], [.stdout], false⟩⟩,
    ⟨.otherwise, .stateless, none, none, false, ⟨[.stdin], [], [.stdout], false⟩⟩]⟩,
  ⟨"readelf", [
    ⟨.otherwise, .pureOnly, none, none, false, ⟨[(.args none none)], [], [.stdout], false⟩⟩]⟩]

end PashAnn
