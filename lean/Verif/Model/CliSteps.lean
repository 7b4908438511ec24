import Verif.Model.Cli

/-!
Model of /repo/pash_annotations/annotation_cli.py as a sequence of steps, so that runs can stop at any point or take turns
with each other. `Model/Cli.lean` models a whole run as one step.

The contents of a file are its characters; their encoding is not modelled, and neither are other programs that change,
create or remove the files.
-/

namespace PashAnn.Cli

/-- Regular files by path, with their characters; `none` if there is no file. For annotation_cli.py:36 and 69-71. -/
abbrev Files := String → Option (List Char)

/-- The arguments of a run (annotation_cli.py:15-23) and the directory of the script (25-27). -/
structure Arguments where
  scriptPrefix : String
  saveTo : Option String
  command : String

/-- `script_prefix + where_to_save` (annotation_cli.py:36, 71). -/
def Arguments.target (a : Arguments) : Option String := a.saveTo.map (a.scriptPrefix ++ ·)

/-- How far a run has come. The steps are those of annotation_cli.py:32-73. -/
inductive Stage where
  /-- before annotation_cli.py:32 -/
  | start
  /-- after line 41, with `shall_we_write_to_file` -/
  | checked (write : Bool)
  /-- after line 68, with `shall_we_write_to_file` and `result` -/
  | computed (write : Bool) (result : List Char)
  /-- after line 71: the file is open, these characters have not reached it yet, and this is the position in the file -/
  | writing (rest : List Char) (position : Nat)
  /-- after line 75 -/
  | ended
  /-- ended by an exception -/
  | raised (e : PyErr)
deriving DecidableEq, Repr

/-- A run: its arguments, its stage, and what it has printed, line by line. It runs annotation_cli.py:32-73. -/
structure Process where
  arguments : Arguments
  stage : Stage
  printed : List String

/-- The same with another file at one path. For annotation_cli.py:36 and 69-71. -/
def Files.set (fs : Files) (path : String) (contents : List Char) : Files := fun p => if p = path then some contents else fs p

/-- Characters written at a position of a file with these contents: later characters stay, and a gap is filled with NUL,
as `write(2)` and `lseek(2)` say. For annotation_cli.py:36 and 69-71. -/
def overwrite (contents : List Char) (position : Nat) (new : List Char) : List Char :=
  contents.take position ++ List.replicate (position - contents.length) '\x00' ++ new ++ contents.drop (position + new.length)

/-- The next step of a run, given what the report looks like as a text. How many characters reach the file at once is
left open: `text_file.write` and `text_file.close` (annotation_cli.py:72-73) pass them on as the buffer is filled. -/
inductive Advance (text : Report → String) : Files × Process → Files × Process → Prop
  /-- annotation_cli.py:32-33 -/
  | noFile {fs a out} : a.target = none → Advance text (fs, ⟨a, .start, out⟩) (fs, ⟨a, .checked false, out⟩)
  /-- annotation_cli.py:34-37: the file can be opened -/
  | found {fs a out path} : a.target = some path → (fs path).isSome = true →
      Advance text (fs, ⟨a, .start, out⟩) (fs, ⟨a, .checked true, out⟩)
  /-- annotation_cli.py:34-36, 38-41: the file cannot be opened -/
  | notFound {fs a out path} : a.target = some path → (fs path).isSome = false →
      Advance text (fs, ⟨a, .start, out⟩) (fs, ⟨a, .checked false, out ++ [notice]⟩)
  /-- annotation_cli.py:44-68 -/
  | compute {fs a out w r} : report a.command = .ok r →
      Advance text (fs, ⟨a, .checked w, out⟩) (fs, ⟨a, .computed w (text r).toList, out⟩)
  /-- an exception in annotation_cli.py:44-68 -/
  | fail {fs a out w e} : report a.command = .error e → Advance text (fs, ⟨a, .checked w, out⟩) (fs, ⟨a, .raised e, out⟩)
  /-- annotation_cli.py:74-75 -/
  | print {fs a out result} :
      Advance text (fs, ⟨a, .computed false result, out⟩) (fs, ⟨a, .ended, out ++ [String.ofList result]⟩)
  /-- annotation_cli.py:71: the file is created or emptied -/
  | opened {fs a out result path} : a.target = some path →
      Advance text (fs, ⟨a, .computed true result, out⟩) (fs.set path [], ⟨a, .writing result 0, out⟩)
  /-- annotation_cli.py:72-73: some characters reach the file -/
  | write {fs a out path contents new rest position} : a.target = some path → fs path = some contents → new ≠ [] →
      Advance text (fs, ⟨a, .writing (new ++ rest) position, out⟩)
        (fs.set path (overwrite contents position new), ⟨a, .writing rest (position + new.length), out⟩)
  /-- annotation_cli.py:73: the file is closed -/
  | close {fs a out position} : Advance text (fs, ⟨a, .writing [] position, out⟩) (fs, ⟨a, .ended, out⟩)

end PashAnn.Cli
