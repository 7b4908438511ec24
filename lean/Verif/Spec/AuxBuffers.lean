import Verif.Spec.AuxSchedules

/-!
Specification vocabulary for C125: commands with several outputs as processes that read and write one line at a time, and pipes that
hold only so much. A process that reads waits until there is a line or the input has ended; a process that writes waits until there is room,
unless the reader has stopped. A process can close an output before it stops. The inputs of the first commands are files.
-/

namespace PashAnn.Spec

variable {σ : Type}

/-- What a process does next: read from its `k`-th input, write a line to its `j`-th output, close that output, or stop. -/
inductive PortAction (σ : Type)
  | read (k : Nat) (next : Option String → σ)
  | write (j : Nat) (a : String) (next : σ)
  | close (j : Nat) (next : σ)
  | stop

/-- The processes of the commands: where they start and what they do. -/
structure PortProcesses (σ : Type) where
  start : CommandInvocationWithIOVars → σ
  act : CommandInvocationWithIOVars → σ → PortAction σ

/-- A process while it runs: its state, how much it has read of each input, what it has written to each output, which outputs it has
closed, and of which inputs it has seen the end. -/
structure PortLocal (σ : Type) where
  state : σ
  taken : Nat → Nat
  outs : Nat → Stream
  closed : Nat → Bool
  atEnd : Nat → Bool

/-- A process before its first step. -/
def PortProcesses.init (ps : PortProcesses σ) (c : CommandInvocationWithIOVars) : PortLocal σ :=
  ⟨ps.start c, fun _ => 0, fun _ => [], fun _ => false, fun _ => false⟩

/-- The process after it has read a line from its `k`-th input, or found that there is no more. -/
def PortLocal.reads (s : PortLocal σ) (k : Nat) (next : Option String → σ) (a : Option String) : PortLocal σ :=
  { s with
    state := next a
    taken := fun j => if j = k ∧ a ≠ none then s.taken j + 1 else s.taken j
    atEnd := fun j => if j = k ∧ a = none then true else s.atEnd j }

/-- The process after it has written a line; what is written to a closed output is lost. -/
def PortLocal.writes (s : PortLocal σ) (j : Nat) (a : String) (next : σ) : PortLocal σ :=
  { s with state := next, outs := fun i => if i = j ∧ s.closed j = false then s.outs i ++ [a] else s.outs i }

/-- The process after it has closed an output. -/
def PortLocal.closes (s : PortLocal σ) (j : Nat) (next : σ) : PortLocal σ :=
  { s with state := next, closed := fun i => if i = j then true else s.closed i }

/-- One step of a process that runs alone with complete inputs. -/
def portAlone (ps : PortProcesses σ) (c : CommandInvocationWithIOVars) (ins : List Stream) (s : PortLocal σ) : PortLocal σ :=
  match ps.act c s.state with
  | .read k next => s.reads k next ((ins[k]?.getD [])[s.taken k]?)
  | .write j a next => s.writes j a next
  | .close j next => s.closes j next
  | .stop => s

/-- Some steps alone. -/
def portAloneFor (ps : PortProcesses σ) (c : CommandInvocationWithIOVars) (ins : List Stream) : Nat → PortLocal σ
  | 0 => ps.init c
  | n + 1 => portAlone ps c ins (portAloneFor ps c ins n)

/-- The processes do what the programs do: alone with complete inputs they stop and have written the outputs. -/
def DoWhatFiles (ps : PortProcesses σ) (prog : FilePrograms) : Prop :=
  ∀ c (ins : List Stream), ins.length = (operandsWith c .streamInput).length →
    ∃ n, ps.act c (portAloneFor ps c ins n).state = .stop ∧
      ∀ j, (portAloneFor ps c ins n).outs j = ((prog c.cmdName ins)[j]?).getD []

/-- The processes work in order: each reads its inputs one after the other, from an input only when it has seen the end of those
before it; and it writes its outputs one after the other, to an output that it has not closed when it has closed those before it. -/
def InTurns (ps : PortProcesses σ) : Prop :=
  ∀ c (ins : List Stream) (n : Nat), ins.length = (operandsWith c .streamInput).length →
    (∀ k next, ps.act c (portAloneFor ps c ins n).state = .read k next → ∀ k' < k, (portAloneFor ps c ins n).atEnd k' = true) ∧
    (∀ j a next, ps.act c (portAloneFor ps c ins n).state = .write j a next →
      (portAloneFor ps c ins n).closed j = false ∧ ∀ j' < j, (portAloneFor ps c ins n).closed j' = true)

/-- All processes; that of the `i`-th command is at `i`. -/
abbrev AllPorts (σ : Type) := Nat → PortLocal σ

/-- What is in a file that is given, or has been written to a pipe so far. -/
def PipeHolds (cmds : List CommandInvocationWithIOVars) (given : List (IOVar × Stream)) (s : AllPorts σ) (v : IOVar) (x : Stream) : Prop :=
  (v, x) ∈ given ∨ ∃ (i : Nat) (c : _) (j : Nat), cmds[i]? = some c ∧ (operandsWith c .streamOutput)[j]? = some v ∧ x = (s i).outs j

/-- The file is given, or the process that writes to the pipe has closed it or has stopped. -/
def PipeEnded (ps : PortProcesses σ) (cmds : List CommandInvocationWithIOVars) (given : List (IOVar × Stream)) (s : AllPorts σ)
    (v : IOVar) : Prop :=
  (∃ q ∈ given, q.1 = v) ∨ ∃ (i : Nat) (c : _) (j : Nat), cmds[i]? = some c ∧ (operandsWith c .streamOutput)[j]? = some v ∧
    ((s i).closed j = true ∨ ps.act c (s i).state = .stop)

/-- There is room in the pipe `v`: less than `size` is waiting for any reader that has not stopped. -/
def PipeRoom (ps : PortProcesses σ) (cmds : List CommandInvocationWithIOVars) (size : IOVar → Nat) (given : List (IOVar × Stream))
    (s : AllPorts σ) (v : IOVar) : Prop :=
  ∀ (i : Nat) (d : _) (k : Nat), cmds[i]? = some d → (operandsWith d .streamInput)[k]? = some v → ps.act d (s i).state ≠ .stop →
    ∀ x, PipeHolds cmds given s v x → x.length < (s i).taken k + size v

/-- One process goes on. -/
def AllPorts.set (s : AllPorts σ) (i : Nat) (l : PortLocal σ) : AllPorts σ := fun j => if j = i then l else s j

/-- A step of one process: it gets the next line of an input, finds that the input has ended, writes, or closes an output. -/
inductive PortStep (ps : PortProcesses σ) (cmds : List CommandInvocationWithIOVars) (size : IOVar → Nat)
    (given : List (IOVar × Stream)) (s : AllPorts σ) : AllPorts σ → Prop
  | get {i k : Nat} {c : CommandInvocationWithIOVars} {v : IOVar} {next : Option String → σ} {x : Stream} {a : String}
      (h : cmds[i]? = some c) (ha : ps.act c (s i).state = .read k next) (hv : (operandsWith c .streamInput)[k]? = some v)
      (hh : PipeHolds cmds given s v x) (hx : x[(s i).taken k]? = some a) :
      PortStep ps cmds size given s (s.set i ((s i).reads k next (some a)))
  | atEnd {i k : Nat} {c : CommandInvocationWithIOVars} {v : IOVar} {next : Option String → σ} {x : Stream}
      (h : cmds[i]? = some c) (ha : ps.act c (s i).state = .read k next) (hv : (operandsWith c .streamInput)[k]? = some v)
      (he : PipeEnded ps cmds given s v) (hh : PipeHolds cmds given s v x) (hx : x[(s i).taken k]? = none) :
      PortStep ps cmds size given s (s.set i ((s i).reads k next none))
  | noInput {i k : Nat} {c : CommandInvocationWithIOVars} {next : Option String → σ}
      (h : cmds[i]? = some c) (ha : ps.act c (s i).state = .read k next) (hv : (operandsWith c .streamInput)[k]? = none) :
      PortStep ps cmds size given s (s.set i ((s i).reads k next none))
  | put {i j : Nat} {c : CommandInvocationWithIOVars} {a : String} {next : σ} (h : cmds[i]? = some c)
      (ha : ps.act c (s i).state = .write j a next)
      (hr : ∀ v, (operandsWith c .streamOutput)[j]? = some v → PipeRoom ps cmds size given s v) :
      PortStep ps cmds size given s (s.set i ((s i).writes j a next))
  | close {i j : Nat} {c : CommandInvocationWithIOVars} {next : σ} (h : cmds[i]? = some c)
      (ha : ps.act c (s i).state = .close j next) : PortStep ps cmds size given s (s.set i ((s i).closes j next))

/-- Any number of steps, from the state in which no process has done anything. -/
inductive PortRun (ps : PortProcesses σ) (cmds : List CommandInvocationWithIOVars) (size : IOVar → Nat)
    (given : List (IOVar × Stream)) : Nat → AllPorts σ → Prop
  | start {s : AllPorts σ} (h : ∀ (i : Nat) c, cmds[i]? = some c → s i = ps.init c) : PortRun ps cmds size given 0 s
  | step {n : Nat} {s t : AllPorts σ} (hr : PortRun ps cmds size given n s) (h : PortStep ps cmds size given s t) :
      PortRun ps cmds size given (n + 1) t

end PashAnn.Spec
