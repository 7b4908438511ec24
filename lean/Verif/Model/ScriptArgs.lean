import Verif.Model.Cli

/-!
Model of the arguments of the script (/repo/pash_annotations/annotation_cli.py:13-30): the parser declared there, which has
the options `--command_invocation` and `--save_to`, both with one argument, and `-h` and `--help`, which `argparse` adds; and
no positional arguments. The functions follow `argparse` of Python 3.11 for such a parser. Messages are not modelled, only
whether the script goes on, prints its help, or prints a usage message. Which characters are decimal digits is a parameter.
-/

namespace PashAnn.ScriptArgs

/-- What an option does: print the help (`add_help`, annotation_cli.py:13), set the command (16-17), set the file (18-20). -/
inductive Action where
  | help
  | command
  | save
deriving DecidableEq, Repr

/-- The spellings of the options, in the order of declaration (annotation_cli.py:13-20). -/
def options : List (List Char × Action) :=
  [("-h".toList, .help), ("--help".toList, .help), ("--command_invocation".toList, .command), ("--save_to".toList, .save)]

/-- How a word is read before the options are applied (`_parse_optional`): as an argument; as the word `--`; or as an option,
with the action unless there is no such option, whether its name begins with two dashes, whether a separator `=` was found, and
the argument given in the same word. For `argparse` in annotation_cli.py:13-23. -/
inductive Token where
  | argument
  | dashes
  | option (action : Option Action) (long sep : Bool) (explicit : Option (List Char))
deriving DecidableEq, Repr

/-- `str.partition('=')`: what is before the first `=`, and what is after it if there is one. For `argparse` in
annotation_cli.py:13-23. -/
def partitionEq (w : List Char) : List Char × Option (List Char) :=
  (w.takeWhile (· ≠ '='), match w.dropWhile (· ≠ '=') with
    | [] => none
    | _ :: r => some r)

/-- `_get_option_tuples`, for a word that begins with a dash and has another character: the options that it can stand for.
For `argparse` in annotation_cli.py:13-23. -/
def candidates (w : List Char) : List Token :=
  if "--".toList.isPrefixOf w then
    (options.filter fun o => (partitionEq w).1.isPrefixOf o.1).map fun o =>
      .option (some o.2) ("--".toList.isPrefixOf o.1) (partitionEq w).2.isSome (partitionEq w).2
  else
    options.filterMap fun o =>
      if o.1 = w.take 2 then some (.option (some o.2) ("--".toList.isPrefixOf o.1) false (some (w.drop 2)))
      else if w.isPrefixOf o.1 then some (.option (some o.2) ("--".toList.isPrefixOf o.1) false none)
      else none

/-- Some digits and nothing else. For `argparse` in annotation_cli.py:13-23. -/
def allDigits (digit : Char → Bool) (w : List Char) : Bool := !w.isEmpty && w.all digit

/-- `_negative_number_matcher`: `^-\d+$|^-\d*\.\d+$`, where `$` also matches before a newline at the end. For `argparse` in
annotation_cli.py:13-23. -/
def negativeNumber (digit : Char → Bool) (w : List Char) : Bool :=
  match w with
  | '-' :: r =>
      let r := if r.getLast? = some '\n' then r.dropLast else r
      allDigits digit r || (match r.dropWhile digit with
        | '.' :: s => allDigits digit s
        | _ => false)
  | _ => false

/-- `_parse_optional`; the error is the usage message about an ambiguous option. For `argparse` in annotation_cli.py:13-23. -/
def parseOptional (digit : Char → Bool) (w : List Char) : Except Unit Token :=
  match w with
  | [] => .ok .argument
  | c :: r =>
      if c ≠ '-' then .ok .argument
      else match options.lookup w with
        | some a => .ok (.option (some a) ("--".toList.isPrefixOf w) false none)
        | none =>
            if r = [] then .ok .argument
            else match (partitionEq w).2, options.lookup (partitionEq w).1 with
              | some e, some a => .ok (.option (some a) ("--".toList.isPrefixOf w) true (some e))
              | _, _ =>
                  match candidates w with
                  | _ :: _ :: _ => .error ()
                  | [t] => .ok t
                  | [] =>
                      if negativeNumber digit w then .ok .argument
                      else if ' ' ∈ w then .ok .argument
                      else .ok (.option none ("--".toList.isPrefixOf w) false none)

/-- The first pass of `_parse_known_args`: all words after `--` are arguments. For `argparse` in annotation_cli.py:13-23. -/
def tokens (digit : Char → Bool) : List String → Except Unit (List (String × Token))
  | [] => .ok []
  | w :: ws =>
      if w = "--" then .ok ((w, .dashes) :: ws.map fun v => (v, .argument))
      else do
        let t ← parseOptional digit w.toList
        let ts ← tokens digit ws
        .ok ((w, t) :: ts)

/-- How reading the arguments ends: with the values of the two options, with the help, or with a usage message. For
`argparse` in annotation_cli.py:13-23. -/
inductive Outcome where
  | run (command : String) (saveTo : Option String)
  | help
  | usage
deriving DecidableEq, Repr

/-- `-h` with more characters in the same word (the loop in `consume_optional`): further `-h` are found in it; an argument
after `=`, an empty argument and a dash are errors; another character would be an unknown option, but the help comes first.
For `argparse` in annotation_cli.py:13-23. -/
def helpCluster : List Char → Outcome
  | [] => .usage
  | 'h' :: [] => .help
  | 'h' :: '=' :: _ => .usage
  | 'h' :: c :: r => helpCluster (c :: r)
  | '-' :: _ => .usage
  | _ :: _ => .help

/-- What has been read: the values of the options and whether there were words that belong to no option. For `argparse` in
annotation_cli.py:13-23. -/
structure State where
  command : Option String := none
  save : Option String := none
  extras : Bool := false

/-- Setting the value of an option that has one. For `argparse` in annotation_cli.py:13-23. -/
def State.set (s : State) (a : Action) (v : String) : State :=
  match a with
  | .help => s
  | .command => { s with command := some v }
  | .save => { s with save := some v }

/-- The second pass of `_parse_known_args` (`consume_optional`), then the check for required options and `parse_args`. For
`argparse` in annotation_cli.py:13-23. -/
def consume : List (String × Token) → State → Outcome
  | [], s =>
      match s.command with
      | none => .usage
      | some c => if s.extras then .usage else .run c s.save
  | (_, .argument) :: r, s => consume r { s with extras := true }
  | (_, .dashes) :: r, s => consume r { s with extras := true }
  | (_, .option none _ _ _) :: r, s => consume r { s with extras := true }
  | (_, .option (some .help) _ _ none) :: _, _ => .help
  | (_, .option (some .help) long sep (some e)) :: _, _ => if long || sep then .usage else helpCluster e
  | (_, .option (some a) _ _ (some e)) :: r, s => consume r (s.set a (String.ofList e))
  | (_, .option (some a) _ _ none) :: (v, .argument) :: r, s => consume r (s.set a v)
  | (_, .option (some _) _ _ none) :: _, _ => .usage

/-- `parser.parse_args()` (annotation_cli.py:23). -/
def parseArgs (digit : Char → Bool) (argv : List String) : Outcome :=
  match tokens digit argv with
  | .error () => .usage
  | .ok ts => consume ts {}

/-- How the script ends: having printed its help or a usage message, or having run, with what it printed and possibly an
exception (annotation_cli.py:23-73). -/
inductive End where
  | help
  | usage
  | ran (printed : List String) (exception : Option PyErr)

/-- The script from its arguments to its end (annotation_cli.py:13-73), and the files afterwards. -/
def main (digit : Char → Bool) (text : Cli.Report → String) (fs : Cli.FileSystem) (scriptPath : String) (argv : List String) :
    End × Cli.FileSystem :=
  match parseArgs digit argv with
  | .help => (.help, fs)
  | .usage => (.usage, fs)
  | .run command saveTo =>
      let r := Cli.run text fs (Cli.scriptPrefixOf scriptPath) saveTo command
      (.ran r.1.1 r.2, r.1.2)

end PashAnn.ScriptArgs
