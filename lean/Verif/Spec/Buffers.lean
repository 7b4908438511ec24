import Verif.Spec.Schedules

/-!
Specification vocabulary for C117: commands as processes that read and write one element at a time, and pipes that hold only so
much. A process that reads waits until there is something or the writer has stopped; a process that writes waits until there is
room, unless the reader has stopped. The inputs of the first commands are files.
-/

namespace PashAnn.Spec

variable {α σ : Type}

/-- What a process does next: read from its `k`-th input, write an element, or stop. It is told if the input has ended. -/
inductive ProcAction (α σ : Type)
  | read (k : Nat) (next : Option α → σ)
  | write (a : α) (next : σ)
  | stop

/-- The processes of the commands: where they start and what they do. -/
structure Processes (α σ : Type) where
  start : CommandInvocationWithIOVars → σ
  act : CommandInvocationWithIOVars → σ → ProcAction α σ

/-- A process while it runs: its state, how much it has read of each input, and what it has written. -/
structure Local (α σ : Type) where
  state : σ
  taken : Nat → Nat
  out : List α

/-- A process before its first step. -/
def Processes.init (ps : Processes α σ) (c : CommandInvocationWithIOVars) : Local α σ := ⟨ps.start c, fun _ => 0, []⟩

/-- The process after it has read something from its `k`-th input, or found that there is no more. -/
def Local.reads (s : Local α σ) (k : Nat) (next : Option α → σ) (a : Option α) : Local α σ :=
  ⟨next a, fun j => if j = k ∧ a ≠ none then s.taken j + 1 else s.taken j, s.out⟩

/-- The process after it has written something. -/
def Local.writes (s : Local α σ) (a : α) (next : σ) : Local α σ := ⟨next, s.taken, s.out ++ [a]⟩

/-- One step of a process that runs alone with complete inputs. -/
def alone (ps : Processes α σ) (c : CommandInvocationWithIOVars) (ins : List (List α)) (s : Local α σ) : Local α σ :=
  match ps.act c s.state with
  | .read k next => s.reads k next ((ins[k]?.getD [])[s.taken k]?)
  | .write a next => s.writes a next
  | .stop => s

/-- Some steps alone. -/
def aloneFor (ps : Processes α σ) (c : CommandInvocationWithIOVars) (ins : List (List α)) : Nat → Local α σ
  | 0 => ps.init c
  | n + 1 => alone ps c ins (aloneFor ps c ins n)

/-- The processes do what the programs do: alone with complete inputs they stop and have written the output. -/
def DoWhat (ps : Processes α σ) (prog : ProgramsOn α) : Prop :=
  ∀ c (ins : List (List α)), ins.length = (withAccess c .streamInput).length → ∃ n, ps.act c (aloneFor ps c ins n).state = .stop ∧
    (aloneFor ps c ins n).out = prog c.cmdName c.flagOptionList (strOperands c) ins

/-- All processes; the one that writes to `v` is at `v`. -/
abbrev AllLocal (α σ : Type) := IOVar → Local α σ

/-- What is in a file that is given, or has been written to a pipe so far. -/
def contents (given : List (IOVar × List α)) (s : AllLocal α σ) (v : IOVar) : List α := (given.lookup v).getD (s v).out

/-- The file is given, or the process that writes to the pipe has stopped. -/
def Ended (ps : Processes α σ) (cmds : List CommandInvocationWithIOVars) (given : List (IOVar × List α)) (s : AllLocal α σ)
    (v : IOVar) : Prop :=
  (∃ q ∈ given, q.1 = v) ∨ ∃ c ∈ cmds, withAccess c .streamOutput = [v] ∧ ps.act c (s v).state = .stop

/-- There is room in the pipe `v`: less than `size` is waiting for any reader that has not stopped. -/
def Room (ps : Processes α σ) (cmds : List CommandInvocationWithIOVars) (size : IOVar → Nat) (s : AllLocal α σ) (v : IOVar) : Prop :=
  ∀ d ∈ cmds, ∀ o k, withAccess d .streamOutput = [o] → (withAccess d .streamInput)[k]? = some v → ps.act d (s o).state ≠ .stop →
    (s v).out.length < (s o).taken k + size v

/-- One process goes on. -/
def AllLocal.set (s : AllLocal α σ) (v : IOVar) (l : Local α σ) : AllLocal α σ := fun u => if u = v then l else s u

/-- A step of one process: it gets the next element of an input, finds that the input has ended, or writes. -/
inductive BufferStep (ps : Processes α σ) (cmds : List CommandInvocationWithIOVars) (size : IOVar → Nat)
    (given : List (IOVar × List α)) (s : AllLocal α σ) : AllLocal α σ → Prop
  | get {c : CommandInvocationWithIOVars} {o v : IOVar} {k : Nat} {next : Option α → σ} {a : α} (h : c ∈ cmds)
      (ho : withAccess c .streamOutput = [o]) (ha : ps.act c (s o).state = .read k next)
      (hv : (withAccess c .streamInput)[k]? = some v) (hx : (contents given s v)[(s o).taken k]? = some a) :
      BufferStep ps cmds size given s (s.set o ((s o).reads k next (some a)))
  | atEnd {c : CommandInvocationWithIOVars} {o v : IOVar} {k : Nat} {next : Option α → σ} (h : c ∈ cmds)
      (ho : withAccess c .streamOutput = [o]) (ha : ps.act c (s o).state = .read k next)
      (hv : (withAccess c .streamInput)[k]? = some v) (he : Ended ps cmds given s v)
      (hx : (contents given s v)[(s o).taken k]? = none) : BufferStep ps cmds size given s (s.set o ((s o).reads k next none))
  | noInput {c : CommandInvocationWithIOVars} {o : IOVar} {k : Nat} {next : Option α → σ} (h : c ∈ cmds)
      (ho : withAccess c .streamOutput = [o]) (ha : ps.act c (s o).state = .read k next)
      (hv : (withAccess c .streamInput)[k]? = none) : BufferStep ps cmds size given s (s.set o ((s o).reads k next none))
  | put {c : CommandInvocationWithIOVars} {o : IOVar} {a : α} {next : σ} (h : c ∈ cmds)
      (ho : withAccess c .streamOutput = [o]) (ha : ps.act c (s o).state = .write a next) (hr : Room ps cmds size s o) :
      BufferStep ps cmds size given s (s.set o ((s o).writes a next))

/-- Any number of steps, from the state in which no process has done anything. -/
inductive BufferRun (ps : Processes α σ) (cmds : List CommandInvocationWithIOVars) (size : IOVar → Nat)
    (given : List (IOVar × List α)) : Nat → AllLocal α σ → Prop
  | start {s : AllLocal α σ} (h : ∀ c ∈ cmds, ∀ o, withAccess c .streamOutput = [o] → s o = ps.init c) :
      BufferRun ps cmds size given 0 s
  | step {n : Nat} {s t : AllLocal α σ} (hr : BufferRun ps cmds size given n s) (h : BufferStep ps cmds size given s t) :
      BufferRun ps cmds size given (n + 1) t

/-- All processes have to wait, or have stopped. -/
def AllWait (ps : Processes α σ) (cmds : List CommandInvocationWithIOVars) (size : IOVar → Nat)
    (given : List (IOVar × List α)) (s : AllLocal α σ) : Prop :=
  ∀ t, ¬ BufferStep ps cmds size given s t

end PashAnn.Spec
