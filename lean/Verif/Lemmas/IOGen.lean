import Verif.Model.IOGenerators
import Verif.Lemmas.Table

namespace PashAnn
open Spec

/-- The commands that have an input-output generator, with that generator. -/
def ioTable : List (String × IOGenerator) :=
  [("alt_bigrams_aux", IOGen.altBigramsAux), ("alt_bigram_aux_reduce", IOGen.altBigramAuxReduce),
   ("awk", IOGen.awk), ("bigrams_aux", IOGen.bigramsAux), ("cat", IOGen.cat), ("col", IOGen.col),
   ("comm", IOGen.comm), ("custom_sort", IOGen.customSort), ("custom_tr", IOGen.customTr), ("cut", IOGen.cut),
   ("diff", IOGen.diff), ("grep", IOGen.grep), ("head", IOGen.head), ("mkfifo", IOGen.mkfifo), ("mv", IOGen.mv),
   ("rm", IOGen.rm), ("sed", IOGen.sed), ("set_diff", IOGen.setDiff), ("seq", IOGen.seq), ("sort", IOGen.sort),
   ("tail", IOGen.tail), ("tee", IOGen.tee), ("test_one", IOGen.testOne), ("test_two", IOGen.testTwo),
   ("tr", IOGen.tr), ("uniq", IOGen.uniq), ("wc", IOGen.wc), ("xargs", IOGen.xargs)]

theorem commandRepr_table : ∀ p ∈ commandDict, commandRepr p.1 = p.2 := by decide +kernel

theorem ioGen_of_mem {name : String} {gen : IOGenerator} (h : (name, gen) ∈ ioTable) :
    ioGeneratorClasses.lookup (commandRepr name) = some gen := by
  have key : ∀ n r, (n, r) ∈ commandDict → commandRepr n = r := fun n r h => commandRepr_table (n, r) h
  simp only [ioTable, List.mem_cons, Prod.mk.injEq, List.not_mem_nil, or_false] at h
  rcases h with ⟨rfl, rfl⟩ | ⟨rfl, rfl⟩ | ⟨rfl, rfl⟩ | ⟨rfl, rfl⟩ | ⟨rfl, rfl⟩ | ⟨rfl, rfl⟩ | ⟨rfl, rfl⟩ |
    ⟨rfl, rfl⟩ | ⟨rfl, rfl⟩ | ⟨rfl, rfl⟩ | ⟨rfl, rfl⟩ | ⟨rfl, rfl⟩ | ⟨rfl, rfl⟩ | ⟨rfl, rfl⟩ | ⟨rfl, rfl⟩ |
    ⟨rfl, rfl⟩ | ⟨rfl, rfl⟩ | ⟨rfl, rfl⟩ | ⟨rfl, rfl⟩ | ⟨rfl, rfl⟩ | ⟨rfl, rfl⟩ | ⟨rfl, rfl⟩ | ⟨rfl, rfl⟩ |
    ⟨rfl, rfl⟩ | ⟨rfl, rfl⟩ | ⟨rfl, rfl⟩ | ⟨rfl, rfl⟩ | ⟨rfl, rfl⟩ <;>
  · rw [key _ _ (by simp [commandDict]; rfl)]
    rfl

theorem ioGen_cases (name : String) :
    (∃ gen, (name, gen) ∈ ioTable ∧ ioGeneratorClasses.lookup (commandRepr name) = some gen) ∨
    ((∀ gen, (name, gen) ∉ ioTable) ∧ ioGeneratorClasses.lookup (commandRepr name) = none) := by
  by_cases h : ∃ gen, (name, gen) ∈ ioTable
  · obtain ⟨gen, h⟩ := h
    exact .inl ⟨gen, h, ioGen_of_mem h⟩
  · refine .inr ⟨fun gen hg => h ⟨gen, hg⟩, ?_⟩
    unfold commandRepr dictGet?
    cases hr : commandDict.reverse.lookup name with
    | none => rfl
    | some r =>
        have hm : (name, r) ∈ commandDict := by simpa using lookup_mem hr
        simp only [commandDict, List.mem_cons, Prod.mk.injEq, List.not_mem_nil, or_false] at hm
        simp only [ioTable, List.mem_cons, Prod.mk.injEq, List.not_mem_nil, or_false, not_exists] at h
        rcases hm with ⟨rfl, rfl⟩ | ⟨rfl, rfl⟩ | ⟨rfl, rfl⟩ | ⟨rfl, rfl⟩ | ⟨rfl, rfl⟩ | ⟨rfl, rfl⟩ | ⟨rfl, rfl⟩ |
          ⟨rfl, rfl⟩ | ⟨rfl, rfl⟩ | ⟨rfl, rfl⟩ | ⟨rfl, rfl⟩ | ⟨rfl, rfl⟩ | ⟨rfl, rfl⟩ | ⟨rfl, rfl⟩ | ⟨rfl, rfl⟩ |
          ⟨rfl, rfl⟩ | ⟨rfl, rfl⟩ | ⟨rfl, rfl⟩ | ⟨rfl, rfl⟩ | ⟨rfl, rfl⟩ | ⟨rfl, rfl⟩ | ⟨rfl, rfl⟩ | ⟨rfl, rfl⟩ |
          ⟨rfl, rfl⟩ | ⟨rfl, rfl⟩ | ⟨rfl, rfl⟩ | ⟨rfl, rfl⟩ | ⟨rfl, rfl⟩ | ⟨rfl, rfl⟩ | ⟨rfl, rfl⟩ <;>
        first
          | rfl
          | exact absurd h (by simp)

end PashAnn
