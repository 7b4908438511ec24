import Verif.Model.DataFiles
import Verif.Model.ManPage

/-!
Model of the two functions of Python's `json` that the code calls: `json.loads` (util_parser.py:15) and
`json.dumps(…, indent=4)` (args-to-json.py:84), after Lib/json/decoder.py, scanner.py and encoder.py of Python 3. With it, of
what the script args-to-json.py prints (82-87), and of data files given by their texts. Numbers are kept as texts. A text is a
list of characters; `\u` escapes for half of a surrogate pair, which Python accepts, are outside the model.
-/

namespace PashAnn.Json

/-- `WHITESPACE` (decoder.py): blanks, tabs and line ends. -/
def isBlank (c : Char) : Bool := c == ' ' || c == '\t' || c == '\n' || c == '\r'

/-- `WHITESPACE.match(s, end).end()`: the rest of the text after blanks. For `json.loads` (util_parser.py:15). -/
def skip (cs : List Char) : List Char := cs.dropWhile isBlank

/-- The value of a hexadecimal digit. For `json.loads` (util_parser.py:15). -/
def hexValue (c : Char) : Option Nat :=
  if '0' ≤ c && c ≤ '9' then some (c.toNat - 48)
  else if 'a' ≤ c && c ≤ 'f' then some (c.toNat - 87)
  else if 'A' ≤ c && c ≤ 'F' then some (c.toNat - 55)
  else none

/-- `_decode_uXXXX` (decoder.py): four hexadecimal digits. -/
def fourDigits : List Char → Option (Nat × List Char)
  | a :: b :: c :: d :: rest =>
    match hexValue a, hexValue b, hexValue c, hexValue d with
    | some a, some b, some c, some d => some (((a * 16 + b) * 16 + c) * 16 + d, rest)
    | _, _, _, _ => none
  | _ => none

/-- `BACKSLASH` (decoder.py). -/
def escaped (c : Char) : Option Char :=
  if c == '"' then some '"' else if c == '\\' then some '\\' else if c == '/' then some '/'
  else if c == 'b' then some (Char.ofNat 8) else if c == 'f' then some (Char.ofNat 12) else if c == 'n' then some '\n'
  else if c == 'r' then some '\r' else if c == 't' then some '\t' else none

/-- The character after `\u` (decoder.py, `py_scanstring`): a surrogate pair is one character. -/
def unicode (cs : List Char) : Option (Char × List Char) :=
  match fourDigits cs with
  | none => none
  | some (uni, rest) =>
    if 0xd800 ≤ uni && uni ≤ 0xdbff then
      match rest with
      | '\\' :: 'u' :: rest' =>
        match fourDigits rest' with
        | some (uni2, rest'') =>
          if 0xdc00 ≤ uni2 && uni2 ≤ 0xdfff then some (Char.ofNat (0x10000 + (uni - 0xd800) * 1024 + (uni2 - 0xdc00)), rest'')
          else none
        | none => none
      | _ => none
    else if 0xdc00 ≤ uni && uni ≤ 0xdfff then none
    else some (Char.ofNat uni, rest)

/-- `py_scanstring` (decoder.py), after the opening quote: the characters and the rest of the text. Control characters are
not allowed. -/
def scanString : Nat → List Char → Option (List Char × List Char)
  | 0, _ => none
  | n + 1, cs =>
    match cs with
    | [] => none
    | '"' :: rest => some ([], rest)
    | '\\' :: 'u' :: rest =>
      match unicode rest with
      | none => none
      | some (c, rest') => (scanString n rest').map fun r => (c :: r.1, r.2)
    | '\\' :: e :: rest =>
      match escaped e with
      | none => none
      | some c => (scanString n rest).map fun r => (c :: r.1, r.2)
    | c :: rest => if c.toNat < 32 || c == '\\' then none else (scanString n rest).map fun r => (c :: r.1, r.2)

/-- `[0-9]`. For `json.loads` (util_parser.py:15). -/
def isDigit (c : Char) : Bool := '0' ≤ c && c ≤ '9'

/-- The longest part made of digits, and the rest. For `json.loads` (util_parser.py:15). -/
def digits (cs : List Char) : List Char × List Char := (cs.takeWhile isDigit, cs.dropWhile isDigit)

/-- `(\.\d+)?`. For `json.loads` (util_parser.py:15). -/
def fraction (cs : List Char) : List Char × List Char :=
  match cs with
  | '.' :: rest =>
    let r := digits rest
    if r.1.isEmpty then ([], cs) else ('.' :: r.1, r.2)
  | _ => ([], cs)

/-- `[-+]?`. For `json.loads` (util_parser.py:15). -/
def exponentSign (cs : List Char) : List Char × List Char :=
  match cs with
  | '+' :: r => (['+'], r)
  | '-' :: r => (['-'], r)
  | r => ([], r)

/-- `([eE][-+]?\d+)?`. For `json.loads` (util_parser.py:15). -/
def exponent (cs : List Char) : List Char × List Char :=
  match cs with
  | e :: rest =>
    if e == 'e' || e == 'E' then
      let s := exponentSign rest
      let r := digits s.2
      if r.1.isEmpty then ([], cs) else (e :: s.1 ++ r.1, r.2)
    else ([], cs)
  | _ => ([], cs)

/-- `-?`. For `json.loads` (util_parser.py:15). -/
def minus (cs : List Char) : List Char × List Char :=
  match cs with
  | '-' :: r => (['-'], r)
  | r => ([], r)

/-- `0|[1-9]\d*`. For `json.loads` (util_parser.py:15). -/
def integer (cs : List Char) : List Char × List Char :=
  match cs with
  | '0' :: r => (['0'], r)
  | r => digits r

/-- `NUMBER_RE` (scanner.py). -/
def number (cs : List Char) : Option (List Char × List Char) :=
  let s := minus cs
  let i := integer s.2
  if i.1.isEmpty then none
  else
    let f := fraction i.2
    let e := exponent f.2
    some (s.1 ++ i.1 ++ f.1 ++ e.1, e.2)

/-- The constants and numbers (scanner.py, `_scan_once`; the other constants are those of decoder.py, `_CONSTANTS`). -/
def scalar (cs : List Char) : Option (Json × List Char) :=
  if "null".toList.isPrefixOf cs then some (null, cs.drop 4)
  else if "true".toList.isPrefixOf cs then some (bool true, cs.drop 4)
  else if "false".toList.isPrefixOf cs then some (bool false, cs.drop 5)
  else match number cs with
    | some (t, rest) => some (num (String.ofList t), rest)
    | none =>
      if "NaN".toList.isPrefixOf cs then some (num "NaN", cs.drop 3)
      else if "Infinity".toList.isPrefixOf cs then some (num "Infinity", cs.drop 8)
      else if "-Infinity".toList.isPrefixOf cs then some (num "-Infinity", cs.drop 9)
      else none

/-- `d[k] = v` for the items of a dictionary. For `json.loads` (util_parser.py:15). -/
def insert (d : List (String × Json)) (k : String) (v : Json) : List (String × Json) :=
  if d.any (fun e => e.1 == k) then d.map fun e => if e.1 == k then (k, v) else e else d ++ [(k, v)]

mutual
/-- `_scan_once` (scanner.py). The number bounds the depth of the calls and the length of strings; `loads` gives enough. -/
def scan : Nat → List Char → Option (Json × List Char)
  | 0, _ => none
  | n + 1, cs =>
    match cs with
    | '"' :: rest => (scanString n rest).map fun r => (str (String.ofList r.1), r.2)
    | '{' :: rest =>
      match skip rest with
      | '}' :: rest' => some (obj [], rest')
      | rest' => (members n [] rest').map fun r => (obj r.1, r.2)
    | '[' :: rest =>
      match skip rest with
      | ']' :: rest' => some (arr [], rest')
      | rest' => (elements n rest').map fun r => (arr r.1, r.2)
    | cs => scalar cs
/-- The loop of `JSONArray` (decoder.py), after blanks have been skipped. -/
def elements : Nat → List Char → Option (List Json × List Char)
  | 0, _ => none
  | n + 1, cs =>
    match scan n cs with
    | none => none
    | some (v, rest) =>
      match skip rest with
      | ']' :: rest' => some ([v], rest')
      | ',' :: rest' => (elements n (skip rest')).map fun r => (v :: r.1, r.2)
      | _ => none
/-- The loop of `JSONObject` (decoder.py), after blanks have been skipped: the items so far and those that follow. -/
def members : Nat → List (String × Json) → List Char → Option (List (String × Json) × List Char)
  | 0, _, _ => none
  | n + 1, d, cs =>
    match cs with
    | '"' :: rest =>
      match scanString n rest with
      | none => none
      | some (k, rest) =>
        match skip rest with
        | ':' :: rest =>
          match scan n (skip rest) with
          | none => none
          | some (v, rest) =>
            match skip rest with
            | '}' :: rest => some (insert d (String.ofList k) v, rest)
            | ',' :: rest => members n (insert d (String.ofList k) v) (skip rest)
            | _ => none
        | _ => none
    | _ => none
end

/-- `json.loads` (decoder.py, `decode`); `none` stands for a `JSONDecodeError`. -/
def loads (text : List Char) : Option Json :=
  match scan (text.length + 1) (skip text) with
  | some (j, rest) => if (skip rest).isEmpty then some j else none
  | none => none

/-- A hexadecimal digit. For `json.dumps` (args-to-json.py:84). -/
def hexDigit (n : Nat) : Char := if n < 10 then Char.ofNat (48 + n) else Char.ofNat (87 + n)

/-- `'\\u{0:04x}'.format(n)` (encoder.py, `py_encode_basestring_ascii`). -/
def uText (n : Nat) : List Char :=
  ['\\', 'u', hexDigit (n / 4096 % 16), hexDigit (n / 256 % 16), hexDigit (n / 16 % 16), hexDigit (n % 16)]

/-- The text of a character in a string (encoder.py, `ESCAPE_DCT` and `py_encode_basestring_ascii`). -/
def charText (c : Char) : List Char :=
  if c == '\\' then ['\\', '\\'] else if c == '"' then ['\\', '"'] else if c == Char.ofNat 8 then ['\\', 'b']
  else if c == Char.ofNat 12 then ['\\', 'f'] else if c == '\n' then ['\\', 'n'] else if c == '\r' then ['\\', 'r']
  else if c == '\t' then ['\\', 't']
  else if 32 ≤ c.toNat && c.toNat ≤ 126 then [c]
  else if c.toNat < 0x10000 then uText c.toNat
  else uText (0xd800 + (c.toNat - 0x10000) / 1024) ++ uText (0xdc00 + (c.toNat - 0x10000) % 1024)

/-- The text of a string. For `json.dumps` (args-to-json.py:84). -/
def strText (s : String) : List Char := '"' :: s.toList.flatMap charText ++ ['"']

/-- A new line with this indentation (encoder.py, `_iterencode`: four blanks for each level). -/
def newLine (level : Nat) : List Char := '\n' :: List.replicate (4 * level) ' '

mutual
/-- `_iterencode` (encoder.py) with `indent=4`, at a level of indentation. -/
def text (level : Nat) : Json → List Char
  | null => "null".toList
  | bool true => "true".toList
  | bool false => "false".toList
  | num t => t.toList
  | str s => strText s
  | arr [] => "[]".toList
  | arr (v :: l) => '[' :: newLine (level + 1) ++ text (level + 1) v ++ textRest (level + 1) l ++ newLine level ++ [']']
  | obj [] => "{}".toList
  | obj ((k, v) :: l) =>
      '{' :: newLine (level + 1) ++ strText k ++ ": ".toList ++ text (level + 1) v ++ textMembers (level + 1) l ++ newLine level ++ ['}']
/-- The elements after the first one, each after a comma and on a line of its own. For `json.dumps` (args-to-json.py:84). -/
def textRest (level : Nat) : List Json → List Char
  | [] => []
  | v :: l => ',' :: newLine level ++ text level v ++ textRest level l
/-- The items after the first one. For `json.dumps` (args-to-json.py:84). -/
def textMembers (level : Nat) : List (String × Json) → List Char
  | [] => []
  | (k, v) :: l => ',' :: newLine level ++ strText k ++ ": ".toList ++ text level v ++ textMembers level l
end

/-- `json.dumps(j, indent=4)` (args-to-json.py:84) -/
def dumps (j : Json) : List Char := text 0 j

end PashAnn.Json

namespace PashAnn.DataFiles

/-- A directory of files with these texts (util_parser.py:10-15). -/
def ofTexts (files : List (String × List Char)) : Dir := files.map fun e => (e.1, Json.loads e.2)

end PashAnn.DataFiles

namespace PashAnn.ManPage

/-- The dictionary `args_dict` (args-to-json.py:52-62) as a value: a flag on a line with an option is a string (59). -/
def argsDict (d : JsonData) : Json :=
  .obj [("flag", .arr (d.flag.map fun
      | .group names => .arr (names.map Json.str)
      | .bare s => .str s)),
    ("option", .arr (d.option.map fun e => .arr (e.names.map Json.str ++ [match e.arg with
      | .word kind => .str kind
      | .withAccess kind access => .arr [.str kind, .str access]])))]

/-- What the script prints (args-to-json.py:82-87), with the line end of `print`. -/
def printed (lines : List (List Char)) : List Char := Json.dumps (argsDict (skeleton lines)) ++ ['\n']

end PashAnn.ManPage
