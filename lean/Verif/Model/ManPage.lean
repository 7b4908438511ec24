import Verif.Model.Data

/-!
Model of /repo/pash_annotations/parser/command_flag_option_info/args-to-json.py and manpage-to-json.sh: the script that
makes the first version of a data file from a manual page. Texts are lists of characters; the regular expressions of the
code are written out as functions. Not modelled: running `man` and reading standard input; printing is in Model/JsonText.lean.
-/

namespace PashAnn.ManPage

/-- The characters matched by `\s` and removed by `str.strip`: those for which `str.isspace` holds (args-to-json.py:27 and
33). -/
def isSpace (c : Char) : Bool :=
  [9, 10, 11, 12, 13, 28, 29, 30, 31, 32, 133, 160, 5760, 8192, 8193, 8194, 8195, 8196, 8197, 8198, 8199, 8200, 8201, 8202,
    8232, 8233, 8239, 8287, 12288].contains c.toNat

/-- `[a-z]` (args-to-json.py:35) -/
def isLower (c : Char) : Bool := 'a' ≤ c && c ≤ 'z'
/-- `[A-Z]` (args-to-json.py:35 and 40) -/
def isUpper (c : Char) : Bool := 'A' ≤ c && c ≤ 'Z'

/-- `re.sub(r"\[|\]", '', line)` (args-to-json.py:15). -/
def dropBrackets (line : List Char) : List Char := line.filter fun c => !(c == '[' || c == ']')

/-- Put a character in front of the first piece. For `re.split` (args-to-json.py:22, 31 and 33). -/
def consFirst (c : Char) : List (List Char) → List (List Char)
  | [] => [[c]]
  | p :: ps => (c :: p) :: ps

/-- `re.split(", ", line)` (args-to-json.py:21). -/
def splitComma : List Char → List (List Char)
  | [] => [[]]
  | [c] => [[c]]
  | c :: d :: rest => if c = ',' ∧ d = ' ' then [] :: splitComma rest else consFirst c (splitComma (d :: rest))

/-- `str.strip` (args-to-json.py:26). -/
def strip (p : List Char) : List Char := ((p.dropWhile isSpace).reverse.dropWhile isSpace).reverse

/-- `re.split(r"=", phrase)` (args-to-json.py:30). -/
def splitEq : List Char → List (List Char)
  | [] => [[]]
  | c :: rest => if c = '=' then [] :: splitEq rest else consFirst c (splitEq rest)

/-- `re.split(r"\s+", phrase)` (args-to-json.py:32): a run of spaces separates two pieces. -/
def splitSpaces : List Char → List (List Char)
  | [] => [[]]
  | [c] => if isSpace c then [[], []] else [[c]]
  | c :: d :: rest =>
    if isSpace c then (if isSpace d then splitSpaces (d :: rest) else [] :: splitSpaces (d :: rest))
    else consFirst c (splitSpaces (d :: rest))

/-- `re.match` with a pattern between `^` and `$`: `$` also matches before a newline at the end (args-to-json.py:35 and 40). -/
def matchLine (p : List Char → Bool) (w : List Char) : Bool :=
  p w || (w.getLast? == some '\n' && p w.dropLast)

/-- `-[-]*[a-z][a-z-]*` (args-to-json.py:34). -/
def longName (w : List Char) : Bool :=
  match w with
  | '-' :: r => match r.dropWhile (· == '-') with
    | c :: r => isLower c && r.all fun x => isLower x || x == '-'
    | [] => false
  | _ => false

/-- `-[-]*[A-Z]` (args-to-json.py:34). -/
def capitalName (w : List Char) : Bool :=
  match w with
  | '-' :: r => match r.dropWhile (· == '-') with
    | [c] => isUpper c
    | _ => false
  | _ => false

/-- `[A-Z]+` (args-to-json.py:39). -/
def argName (w : List Char) : Bool := !w.isEmpty && w.all isUpper

/-- `re.sub("-", '', phrase_parts[0])` (args-to-json.py:35). -/
def removeDashes (w : List Char) : List Char := w.filter fun c => !(c == '-')

/-- What `find_matches` appends (args-to-json.py:40, 42): a name, or a name and its argument. -/
inductive PageArg where
  | name (n : List Char)
  | withArg (n a : List Char)
deriving DecidableEq, Repr

/-- `phrase_parts` (args-to-json.py:29-32). -/
def phraseParts (phrase : List Char) : List (List Char) :=
  if phrase.contains '=' then splitEq phrase else splitSpaces phrase

/-- The body of the loop in `find_matches` (args-to-json.py:24-42) for one stripped phrase: what is appended, if
anything. -/
def findPhrase (phrase : List Char) (past : List (List Char)) : Option PageArg :=
  match phraseParts phrase with
  | [] => none
  | n :: more =>
    if matchLine longName n || matchLine capitalName n then
      if removeDashes n ∈ past then none
      else match more with
        | a :: _ => if matchLine argName a then some (.withArg n a) else some (.name n)
        | [] => some (.name n)
    else none

/-- The name without dashes (args-to-json.py:35). -/
def PageArg.key : PageArg → List Char
  | .name n => removeDashes n
  | .withArg n _ => removeDashes n

/-- The loop in `find_matches` (args-to-json.py:24-42): what is found and the names seen so far. The set is a list; only
membership is used. -/
def findPhrases : List (List Char) → List (List Char) → List PageArg × List (List Char)
  | [], past => ([], past)
  | p :: ps, past =>
    match findPhrase (strip p) past with
    | none => findPhrases ps past
    | some a =>
      let r := findPhrases ps (a.key :: past)
      (a :: r.1, r.2)

/-- `find_matches` (args-to-json.py:5-45). -/
def findMatches (line : List Char) (past : List (List Char)) : List PageArg × List (List Char) :=
  findPhrases (splitComma (dropBrackets line)) past

/-- The loop in `parse_lines` (args-to-json.py:71-77): what is found on each line, without empty results. -/
def findLines : List (List Char) → List (List Char) → List (List PageArg)
  | [], _ => []
  | l :: ls, past =>
    let r := findMatches l past
    if r.1 = [] then findLines ls r.2 else r.1 :: findLines ls r.2

/-- The name of an element that is a string (args-to-json.py:54, 58). -/
def PageArg.str? : PageArg → Option (List Char)
  | .name n => some n
  | .withArg _ _ => none

/-- The inner loop of `parse_args` (args-to-json.py:57-61). -/
def addMixed (d : JsonData) (a : PageArg) : JsonData :=
  match a with
  | .name n => { d with flag := d.flag ++ [.bare (String.ofList n)] }
  | .withArg n a => { d with option := d.option ++ [⟨[String.ofList n], .word (String.ofList a)⟩] }

/-- The body of the loop in `parse_args` (args-to-json.py:53-61). -/
def addLine (d : JsonData) (line : List PageArg) : JsonData :=
  if line.all (fun a => a.str?.isSome) then
    { d with flag := d.flag ++ [.group ((line.filterMap PageArg.str?).map String.ofList)] }
  else line.foldl addMixed d

/-- `parse_args` (args-to-json.py:47-62). -/
def parseArgs (args : List (List PageArg)) : JsonData := args.foldl addLine ⟨[], []⟩

/-- `parse_lines` (args-to-json.py:64-80), on lines as they are read. -/
def skeleton (lines : List (List Char)) : JsonData := parseArgs (findLines lines [])

/-- manpage-to-json.sh:2: the lines of a page that start with seven spaces and a dash, without the spaces. -/
def pageLines (page : List (List Char)) : List (List Char) :=
  (page.filter fun l => "       -".toList.isPrefixOf l).map (·.dropWhile isSpace)

/-- manpage-to-json.sh:2, the whole pipeline after `man`: `grep`, `sed` and the script on what they leave. -/
def ofPage (page : List (List Char)) : JsonData := skeleton (pageLines page)

end PashAnn.ManPage
