import Lean
import Verif
open Lean
run_meta do
  let env ← getEnv
  let mut mine : NameSet := {}
  let mut roots := #[]
  for (n, ci) in env.constants.map₁.toList do
    let some idx := env.getModuleIdxFor? n | continue
    let m := env.header.moduleNames[idx.toNat]!
    if m.toString.startsWith "Verif" then
      mine := mine.insert n
      if m.toString.startsWith "Verif.Props" then
        if let .thmInfo _ := ci then
          let s := n.componentsRev.head!.toString
          if s.startsWith "C" && s.length > 3 && (s.toList.drop 1).head!.isDigit then roots := roots.push n
  -- graph
  let mut graph : NameMap (Array Name) := {}
  for n in mine.toList do
    let some ci := env.find? n | continue
    let cs := ci.type.getUsedConstants ++ (match ci.value? (allowOpaque := true) with | some v => v.getUsedConstants | none => #[])
    graph := graph.insert n (cs.filter mine.contains)
  for r in roots do
    let mut seen : NameSet := {}
    let mut todo := [r]
    while !todo.isEmpty do
      match todo with
      | [] => pure ()
      | n :: t =>
        todo := t
        if seen.contains n then continue
        seen := seen.insert n
        todo := ((graph.find? n).getD #[]).toList ++ todo
    let thms := seen.toList.filter fun n => match env.find? n with | some (.thmInfo _) => !n.isInternal | _ => false
    IO.println s!"{r}\t{" ".intercalate (thms.map toString)}"
