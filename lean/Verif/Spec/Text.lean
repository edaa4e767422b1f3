/-!
# What it means to read text, independently of the readers
-/

namespace Irspack.Spec

/-- `ts` are the maximal runs of characters that are not white space, in order. -/
inductive Words (space : Char → Bool) : List Char → List (List Char) → Prop
  | nil : Words space [] []
  | space (c : Char) (s : List Char) (ts) : space c = true → Words space s ts → Words space (c :: s) ts
  | word (w s : List Char) (ts) : w ≠ [] → (∀ c ∈ w, space c = false) →
      (∀ c, s.head? = some c → space c = true) → Words space s ts → Words space (w ++ s) (w :: ts)

/-- `a` and `b` are what is before and after the last dash of `s`. -/
def AtLastDash (s a b : List Char) : Prop := s = a ++ '-' :: b ∧ '-' ∉ b

/-- parts joined by a character -/
def join (d : Char) : List (List Char) → List Char
  | [] => []
  | [f] => f
  | f :: g :: fs => f ++ d :: join d (g :: fs)

/-- a field that means itself: no separator, no end of line, no quote at the start -/
def PlainField (d : Char) (f : List Char) : Prop :=
  d ∉ f ∧ '\n' ∉ f ∧ '\r' ∉ f ∧ f.head? ≠ some '"'

/-- a line that means itself: its fields do, there is a first one, and it does not look blank -/
def PlainLine (d : Char) (fields : List (List Char)) : Prop :=
  (∀ f ∈ fields, PlainField d f) ∧ fields ≠ [] ∧
  ∀ c, (join d fields).head? = some c → c ≠ ' ' ∧ (c = '\t' → d = '\t')

/-- the text of some lines, each ended by a line feed -/
def text (d : Char) (lines : List (List (List Char))) : List Char :=
  (lines.map (fun l => join d l ++ ['\n'])).flatten

/-- the three ways to end a line: `\n`, `\r\n` and `\r` -/
inductive LineEnd where
  | lf
  | crlf
  | cr

/-- what a text table consists of: lines with fields and blank lines, each with its end -/
inductive Piece where
  | line (fields : List (List Char)) (e : LineEnd)
  | blank (spaces : List Char) (e : LineEnd)

/-- the characters that end a line -/
def lineEnd : LineEnd → List Char
  | .lf => ['\n']
  | .crlf => ['\r', '\n']
  | .cr => ['\r']

/-- its text -/
def Piece.text (d : Char) : Piece → List Char
  | .line fields e => join d fields ++ lineEnd e
  | .blank spaces e => spaces ++ lineEnd e

/-- its text without the end of the line -/
def Piece.body (d : Char) : Piece → List Char
  | .line fields _ => join d fields
  | .blank spaces _ => spaces

/-- the text of a table; `last` is a last line that is not ended -/
def table (d : Char) (pieces : List Piece) (last : Option Piece) : List Char :=
  pieces.flatMap (Piece.text d) ++ (last.map (Piece.body d)).getD []

/-- its rows -/
def Piece.rows : Piece → List (List (List Char))
  | .line fields _ => [fields]
  | .blank _ _ => []

/-- lines mean themselves and are not empty; blank lines are made of blanks and tabs -/
def Piece.Plain (d : Char) : Piece → Prop
  | .line fields _ => PlainLine d fields ∧ join d fields ≠ []
  | .blank spaces _ => ∀ c ∈ spaces, (c = ' ' ∨ c = '\t') ∧ c ≠ d

end Irspack.Spec
