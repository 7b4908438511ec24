import Verif.Model.PyObj

/-!
Two classes that nothing else in the library uses:
/repo/pash_annotations/annotation_generation/datatypes/CommandProperties.py and
/repo/pash_annotations/datatypes/CommandInvocationPrefix.py.
-/

namespace PashAnn

/-- A dictionary with strings as keys, as an association list; the first entry for a key counts. For
CommandProperties.py:8-18. -/
abbrev PropDict (α : Type) := List (String × α)

namespace PropDict
variable {α : Type}

/-- `d.get(k, None)` (CommandProperties.py:18) -/
def get (d : PropDict α) (k : String) : Option α := (d.find? (fun e => e.1 == k)).map Prod.snd

/-- `d[k] = v` (CommandProperties.py:15) -/
def set (d : PropDict α) (k : String) (v : α) : PropDict α := (k, v) :: d.filter (fun e => e.1 != k)

end PropDict

/-- The dictionaries and the `CommandProperties` objects of a running program. Dictionaries and objects are known by
their place in the lists; an object holds the place of its dictionary. For CommandProperties.py:8-18. -/
structure PropWorld (α : Type) where
  dicts : List (PropDict α)
  objects : List Nat
deriving Repr

/-- `return_default_if_none_else_itself` (util.py:51-55). -/
def returnDefaultIfNoneElseItself {α : Type} (arg : Option α) (default : α) : α :=
  match arg with
  | none => default
  | some a => a

/-- What a client does: it makes a dictionary, makes an object, with or without giving it a dictionary, sets a property
of an object, or stores into a dictionary. For CommandProperties.py:8-18. -/
inductive PropStep (α : Type) where
  | dict (d : PropDict α)
  | make (given : Option Nat)
  | setProperty (object : Nat) (name : String) (value : α)
  | store (dict : Nat) (name : String) (value : α)
deriving Repr

namespace PropWorld
variable {α : Type}

/-- `CommandProperties.__init__` (CommandProperties.py:8-9): the argument `dict()` is evaluated in any case and makes a
new dictionary, which is used if none is given; a given dictionary is used itself, not a copy. -/
def make (w : PropWorld α) (given : Option Nat) : PropWorld α :=
  { dicts := w.dicts ++ [[]], objects := w.objects ++ [returnDefaultIfNoneElseItself given w.dicts.length] }

/-- Storing into the dictionary at a place. For CommandProperties.py:8-18. -/
def store (w : PropWorld α) (dict : Nat) (name : String) (value : α) : PropWorld α :=
  { w with dicts := w.dicts.modify dict (fun d => d.set name value) }

/-- `set_property` (CommandProperties.py:14-15). Nothing happens if there is no such object. -/
def setProperty (w : PropWorld α) (object : Nat) (name : String) (value : α) : PropWorld α :=
  match w.objects[object]? with
  | none => w
  | some d => w.store d name value

/-- `get_property_value` (CommandProperties.py:17-18); the outer `none` if there is no such object. -/
def getPropertyValue (w : PropWorld α) (object : Nat) (name : String) : Option (Option α) :=
  (w.objects[object]?).bind (fun d => (w.dicts[d]?).map (fun d => d.get name))

/-- One step of the client. For CommandProperties.py:8-18. -/
def step (w : PropWorld α) : PropStep α → PropWorld α
  | .dict d => { w with dicts := w.dicts ++ [d] }
  | .make given => w.make given
  | .setProperty o n v => w.setProperty o n v
  | .store d n v => w.store d n v

/-- A history. For CommandProperties.py:8-18. -/
def history (steps : List (PropStep α)) : PropWorld α := steps.foldl step ⟨[], []⟩

end PropWorld

/-- `OptionArgPosConfigType` (BasicDatatypes.py:67): a string, a file name or a standard descriptor (22-65). -/
inductive PosConfig where
  | argString (s : String)
  | fileName (s : String)
  | std (d : StdDescriptor)
deriving DecidableEq, Repr

/-- `CommandInvocationPrefix` (CommandInvocationPrefix.py:8-11). -/
structure CommandInvocationPrefix where
  cmdName : String
  flagOptionList : List FlagOption
  positionalConfigList : List PosConfig
deriving DecidableEq, Repr

/-- BasicDatatypes.py:22-65 -/
def PosConfig.py : PosConfig → PyVal
  | .argString s => argStringPy s
  | .fileName s => .obj "FileName" (attrs [("name", .str s)])
  | .std d => .obj "StdDescriptor" (attrs [("name", d.py)])

/-- CommandInvocationPrefix.py:8-17 -/
def CommandInvocationPrefix.py (c : CommandInvocationPrefix) : PyVal :=
  .obj "CommandInvocationPrefix" (attrs [("cmd_name", .str c.cmdName),
    ("flag_option_list", .listOf FlagOption.py c.flagOptionList),
    ("positional_config_list", .listOf PosConfig.py c.positionalConfigList)])

end PashAnn
