import Verif.Model.Py

/-!
Model of `shlex.split(s)` as called at /repo/pash_annotations/parser/parser.py:12, i.e. CPython 3.11
`shlex` with `posix=True`, `whitespace_split=True`, `commenters=''`, no punctuation characters; and of
`shlex.quote` / `shlex.join`, used to state the quoting round trip.
-/

namespace PashAnn.Shlex

/-- `self.whitespace = ' \t\r\n'` (shlex.py, `shlex.__init__`). -/
def isBlank (c : Char) : Bool := c == ' ' || c == '\t' || c == '\r' || c == '\n'

/-- `self.quotes = '\'"'` (shlex.py, `shlex.__init__`). -/
def isQuote (c : Char) : Bool := c == '\'' || c == '"'

/-- `self.escape = '\\'` (shlex.py, `shlex.__init__`). -/
def isEscape (c : Char) : Bool := c == '\\'

/-- Values of `self.state` other than `None`: `' '`, `'a'`, a quote character, the escape character
(shlex.py, `read_token`). State `'c'` needs punctuation characters and cannot occur; `None` only occurs
after the end of the input, where reading stops. -/
inductive LexState where
  | space
  | word
  | quote (q : Char)
  | escape
deriving DecidableEq, Repr

/-- What `read_token` returns at the end of the input, as the rest of the list built by `list(lex)`:
nothing if the token is empty and unquoted (`result = None`), else the token. For parser.py:12. -/
def emitAtEof (tok : List Char) (quoted : Bool) : List (List Char) :=
  if tok.isEmpty && !quoted then [] else [tok]

/-- `read_token` and the loop `list(lex)` around it, merged into one pass over the characters: where the
Python code breaks out of `read_token` with a token, the token is emitted and reading restarts with
`token = ''`, `quoted = False`, `escapedstate = ' '` and the state kept.
Arguments: remaining characters, `self.state`, `self.token`, `quoted`, `escapedstate`. For parser.py:12. -/
def lexGo : List Char → LexState → List Char → Bool → LexState → Py (List (List Char))
  | [], .space, tok, quoted, _ => .ok (emitAtEof tok quoted)
  | [], .word, tok, quoted, _ => .ok (emitAtEof tok quoted)
  | [], .quote _, _, _, _ => .error (.valueError "No closing quotation")
  | [], .escape, _, _, _ => .error (.valueError "No escaped character")
  | c :: cs, .space, tok, quoted, esc =>
      if isBlank c then
        if !tok.isEmpty || quoted then
          (lexGo cs .space [] false .space).map (tok :: ·)
        else lexGo cs .space tok quoted esc
      else if isEscape c then lexGo cs .escape tok quoted .word
      else if isQuote c then lexGo cs (.quote c) tok quoted esc
      else lexGo cs .word [c] quoted esc
  | c :: cs, .quote q, tok, _, esc =>
      if c == q then lexGo cs .word tok true esc
      else if isEscape c && q == '"' then lexGo cs .escape tok true (.quote q)
      else lexGo cs (.quote q) (tok ++ [c]) true esc
  | c :: cs, .escape, tok, quoted, esc =>
      match esc with
      | .quote q =>
          if c != '\\' && c != q then lexGo cs (.quote q) (tok ++ ['\\', c]) quoted esc
          else lexGo cs (.quote q) (tok ++ [c]) quoted esc
      | st => lexGo cs st (tok ++ [c]) quoted esc
  | c :: cs, .word, tok, quoted, esc =>
      if isBlank c then
        if !tok.isEmpty || quoted then
          (lexGo cs .space [] false .space).map (tok :: ·)
        else lexGo cs .space tok quoted esc
      else if isQuote c then lexGo cs (.quote c) tok quoted esc
      else if isEscape c then lexGo cs .escape tok quoted .word
      else lexGo cs .word (tok ++ [c]) quoted esc

/-- `shlex.split(s)` (shlex.py, `split`). -/
def split (s : String) : Py (List String) :=
  (lexGo s.toList .space [] false .space).map (·.map String.ofList)

/-- Characters that `_find_unsafe` does not match: the regular expression complement of `\w` and the characters `@ % + = : , . / -` with
`re.ASCII` (shlex.py). -/
def isSafe (c : Char) : Bool :=
  ('a' ≤ c && c ≤ 'z') || ('A' ≤ c && c ≤ 'Z') || ('0' ≤ c && c ≤ '9') || c == '_' ||
  c == '@' || c == '%' || c == '+' || c == '=' || c == ':' || c == ',' || c == '.' || c == '/' || c == '-'

/-- `s.replace("'", "'\"'\"'")` (shlex.py, `quote`). -/
def replaceQuotes (s : List Char) : List Char :=
  s.flatMap fun c => if c == '\'' then ['\'', '"', '\'', '"', '\''] else [c]

/-- `shlex.quote` (shlex.py). -/
def quoteChars (s : List Char) : List Char :=
  if s.isEmpty then ['\'', '\'']
  else if s.all isSafe then s
  else '\'' :: (replaceQuotes s ++ ['\''])

/-- `shlex.join` (shlex.py): `' '.join(quote(arg) for arg in split_command)`. -/
def joinChars : List (List Char) → List Char
  | [] => []
  | [w] => quoteChars w
  | w :: ws => quoteChars w ++ ' ' :: joinChars ws

/-- `shlex.join` on strings. The code does not call it; it makes command lines for parser.py:12. -/
def join (ws : List String) : String := String.ofList (joinChars (ws.map String.toList))

end PashAnn.Shlex
