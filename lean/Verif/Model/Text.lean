import Verif.Model.Basic

/-!
# Reading text (library functions that the data managers are built on)

Python's `str.split()`, `str.rsplit("-", 1)`, `str.split("\t")`, and the tokenizer of `pandas.read_csv` (C engine,
default options except the separator).  These are not in /repo; the citations name the calls.
Characters are Unicode code points; `space` is `str.isspace` of one character.
-/

namespace Irspack.Text

/-- `str.split()`: the words, `acc` is the word being read.
(called at /repo/src/irspack/dataset/mind.py:226, citeulike.py:26, ML100K.py:52) -/
def wordsFrom (space : Char → Bool) (acc : List Char) : List Char → List (List Char)
  | [] => if acc = [] then [] else [acc]
  | c :: s =>
    if space c then if acc = [] then wordsFrom space [] s else acc :: wordsFrom space [] s
    else wordsFrom space (acc ++ [c]) s

/-- `str.split()` -/
def words (space : Char → Bool) (s : List Char) : List (List Char) := wordsFrom space [] s

/-- `str.rsplit("-", 1)` (mind.py:227): the parts before and after the last dash, if there is one -/
def lastDash : List Char → Option (List Char × List Char)
  | [] => none
  | c :: s =>
    match lastDash s with
    | some (a, b) => some (c :: a, b)
    | none => if c = '-' then some ([], s) else none

/-- `str.split(d)` for one character `d` (neu_mf.py:48): always at least one part -/
def splitOn (d : Char) : List Char → List (List Char)
  | [] => [[]]
  | c :: s =>
    if c = d then [] :: splitOn d s
    else match splitOn d s with
      | [] => [[c]]
      | t :: ts => (c :: t) :: ts

/-! ## The tokenizer of `pandas.read_csv`

The states of `tokenize_bytes` in pandas/_libs/src/parser/tokenizer.c that occur with a one-character separator,
quote character `"`, `doublequote`, no escape or comment character, no `lineterminator`, `skip_blank_lines`.
Not modelled: the byte order mark at the start of a file. -/

inductive State where
  | startRecord
  /-- only white space so far in this line; the characters -/
  | blankLine (seen : List Char)
  | startField
  | inField
  | inQuoted
  | quoteInQuoted
  /-- after `\r` at the end of a line with fields -/
  | eatCrnl
  /-- after `\r` in a blank line -/
  | eatCrnlNop
  deriving DecidableEq

/-- the tokenizer: state, field being read, fields of the line, finished lines -/
structure Tok where
  state : State
  field : List Char
  fields : List (List Char)
  lines : List (List (List Char))

/-- `END_FIELD` -/
def Tok.endField (t : Tok) : Tok := { t with field := [], fields := t.fields ++ [t.field] }

/-- `END_LINE` -/
def Tok.endLine (t : Tok) : Tok := { t with state := .startRecord, fields := [], lines := t.lines ++ [t.fields] }

/-- a character in the states `START_FIELD` -/
def Tok.fieldStart (d : Char) (t : Tok) (c : Char) : Tok :=
  if c = '\n' then t.endField.endLine
  else if c = '\r' then { t.endField with state := .eatCrnl }
  else if c = '"' then { t with state := .inQuoted }
  else if c = d then { t.endField with state := .startField }
  else { t with state := .inField, field := t.field ++ [c] }

/-- a character in the state `IN_FIELD` -/
def Tok.fieldGo (d : Char) (t : Tok) (c : Char) : Tok :=
  if c = '\n' then t.endField.endLine
  else if c = '\r' then { t.endField with state := .eatCrnl }
  else if c = d then { t.endField with state := .startField }
  else { t with state := .inField, field := t.field ++ [c] }

/-- a character in the state `START_RECORD` -/
def Tok.recordStart (d : Char) (t : Tok) (c : Char) : Tok :=
  if c = '\n' then t
  else if c = '\r' then { t with state := .eatCrnlNop }
  else if (c = ' ' ∨ c = '\t') ∧ c ≠ d then { t with state := .blankLine [c] }
  else t.fieldStart d c

/-- one character -/
def Tok.step (d : Char) (t : Tok) (c : Char) : Tok :=
  match t.state with
  | .startRecord => t.recordStart d c
  | .blankLine seen =>
    if c = '\n' then { t with state := .startRecord }
    else if c = '\r' then { t with state := .eatCrnlNop }
    else if (c = ' ' ∨ c = '\t') ∧ c ≠ d then { t with state := .blankLine (seen ++ [c]) }
    else Tok.fieldGo d { t with state := .inField, field := seen } c
  | .startField => t.fieldStart d c
  | .inField => t.fieldGo d c
  | .inQuoted => if c = '"' then { t with state := .quoteInQuoted } else { t with field := t.field ++ [c] }
  | .quoteInQuoted =>
    if c = '"' then { t with state := .inQuoted, field := t.field ++ [c] } else t.fieldGo d c
  | .eatCrnl => if c = '\n' then t.endLine else t.endLine.recordStart d c
  | .eatCrnlNop =>
    if c = '\n' then { t with state := .startRecord } else Tok.recordStart d { t with state := .startRecord } c

/-- the end of the file (`parser_handle_eof`): an open quote is a `ParserError`, which is a `ValueError` -/
def Tok.finish (t : Tok) : Except Err (List (List (List Char))) :=
  match t.state with
  | .startRecord => .ok t.lines
  | .blankLine _ => .ok t.lines
  | .eatCrnlNop => .ok t.lines
  | .startField => .ok t.endField.endLine.lines
  | .inField => .ok t.endField.endLine.lines
  | .quoteInQuoted => .ok t.endField.endLine.lines
  | .eatCrnl => .ok t.endLine.lines
  | .inQuoted => .error .valueError

/-- the lines of a file with their fields -/
def tokenize (d : Char) (text : List Char) : Except Err (List (List (List Char))) :=
  (text.foldl (Tok.step d) ⟨.startRecord, [], [], []⟩).finish

/-- The check of `end_line` for files without header: a line after the first with more fields than the first, or
than there are names, is a `ParserError`. -/
def checkWidth (w : Nat) : List (List (List Char)) → Except Err Unit
  | [] => .ok ()
  | l :: ls => if w < l.length then .error .valueError else checkWidth w ls

/-- missing values: `isNA` tells the strings that `read_csv` takes for NaN, among them the empty one -/
def cell (isNA : List Char → Bool) (s : List Char) : Option (List Char) := if isNA s then none else some s

/-- the cells of a line, filled up with missing values -/
def cells (isNA : List Char → Bool) (w : Nat) (l : List (List Char)) : List (Option (List Char)) :=
  l.map (cell isNA) ++ List.replicate (w - l.length) none

/-- `pandas.read_csv(text, sep=d, header=None, names=…)` with `n` names, or without names (`n = 0`, then a file
without lines is an `EmptyDataError`, a `ValueError`): the number of
leading columns that become the index because there are more fields than names, and the rows.  Simplification:
the conversion of columns to numbers is left out, cells are strings. -/
def readCsv (isNA : List Char → Bool) (d : Char) (n : Nat) (text : List Char) :
    Except Err (Nat × List (List (Option (List Char)))) := do
  let lines ← tokenize d text
  match lines with
  | [] => if n = 0 then .error .valueError else .ok (0, [])
  | first :: rest =>
    let w := max n first.length
    checkWidth w rest
    .ok (if n = 0 then 0 else first.length - n, (first :: rest).map (cells isNA w))

end Irspack.Text
