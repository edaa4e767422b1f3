import Verif.Model.Text
import Verif.Model.Threads
import Verif.Model.Mind

/-!
# Reading the other data sets
(/repo/src/irspack/dataset/neu_mf.py, citeulike.py, movielens/ML1M.py, movielens/ML100K.py)
-/

namespace Irspack.Datasets

open Text

variable (U : Chars)

/-- The lines of a file as iterating over it gives them: each with its line feed, if it has one
(neu_mf.py:40, citeulike.py:22). -/
def linesFrom (acc : List Char) : List Char → List (List Char)
  | [] => if acc = [] then [] else [acc]
  | c :: s => if c = '\n' then (acc ++ [c]) :: linesFrom [] s else linesFrom (acc ++ [c]) s

def lines (text : List Char) : List (List Char) := linesFrom [] text

/-! ## NeuMF -/

/-- `\d` of `re` -/
def isDigit (c : Char) : Bool := (U.digit c).isSome

/-- `\s*(\d+)\s*` at the beginning, without going back: no character is both white space and digit -/
def spacedNumber (s : List Char) : Option (List Char × List Char) :=
  let s := s.dropWhile U.space
  let ds := s.takeWhile (isDigit U)
  if ds = [] then none else some (ds, (s.dropWhile (isDigit U)).dropWhile U.space)

/-- The pattern `\(\s*(\d+)\s*,\s*(\d+)\s*\)` (neu_mf.py:11) at the beginning of a string: the two groups and what
follows. -/
def matchPrefix : List Char → Option (List Char × List Char × List Char)
  | '(' :: s =>
    match spacedNumber U s with
    | some (a, ',' :: t) =>
      match spacedNumber U t with
      | some (b, ')' :: rest) => some (a, b, rest)
      | _ => none
    | _ => none
  | _ => none

/-- `_prefix.search(line)` (neu_mf.py:42): the groups of the first match -/
def search : List Char → Option (List Char × List Char)
  | [] => none
  | c :: s =>
    match matchPrefix U (c :: s) with
    | some (a, b, _) => some (a, b)
    | none => search s

/-- `_prefix.sub("", line)` (neu_mf.py:48): all matches removed; `skip` characters belong to a match -/
def removeFrom (skip : Nat) : List Char → List Char
  | [] => []
  | c :: s =>
    match skip with
    | k + 1 => removeFrom k s
    | 0 =>
      match matchPrefix U (c :: s) with
      | some (_, _, rest) => removeFrom (s.length - rest.length) s
      | none => c :: removeFrom 0 s

/-- `int(s)` -/
def toInt (s : List Char) : Except Err Int :=
  match Threads.pyInt U s with
  | some n => .ok n
  | none => .error .valueError

/-- a row of the test data -/
structure TestRow where
  user : Int
  item : Int
  positive : Bool
  deriving DecidableEq

/-- one line (neu_mf.py:41-49) -/
def testLine (line : List Char) : Except Err (List TestRow) := do
  match search U line with
  | none => .error .assertionError
  | some (u, i) =>
    let uid ← toInt U u
    let iid ← toInt U i
    let negatives ← Mind.mapRows (toInt U) (splitOn '\t' (Threads.strip U (removeFrom U 0 line)))
    .ok (⟨uid, iid, true⟩ :: negatives.map (fun n => ⟨uid, n, false⟩))

/-- `drop_duplicates(["user_id", "item_id"], keep="first")` (neu_mf.py:52) -/
def dropRepeated (seen : List (Int × Int)) : List TestRow → List TestRow
  | [] => []
  | r :: rs =>
    if (r.user, r.item) ∈ seen then dropRepeated seen rs
    else r :: dropRepeated (seen ++ [(r.user, r.item)]) rs

/-- the test data of `read_train_test` (neu_mf.py:38-52), decoded -/
def readTest (text : List Char) : Except Err (List TestRow) := do
  let rows ← Mind.mapRows (testLine U) (lines text)
  .ok (dropRepeated [] rows.flatten)

/-! ## CiteULike -/

/-- One line of `users.dat` (citeulike.py:22-32): the count of the previous line, if any, the user, the words.
Returns the count and the rows.  On a blank line `user_cnt` is still that of the previous line. -/
def userLine (previous : Option Int) (user : Nat) (ws : List (List Char)) : Except Err (Option Int × List (Nat × Int)) :=
  match ws with
  | [] =>
    match previous with
    | none => .error .nameError
    | some n => if n = 0 then .ok (some n, []) else .error .assertionError
  | w :: ws => do
    let n ← toInt U w
    let items ← Mind.mapRows (toInt U) ws
    if n = ws.length then .ok (some n, items.map (fun i => (user, i))) else .error .assertionError

/-- the loop over the lines (citeulike.py:22-32) -/
def userLines (previous : Option Int) (user : Nat) : List (List Char) → Except Err (List (Nat × Int))
  | [] => .ok []
  | l :: ls => do
    let (n, rows) ← userLine U previous user (words U.space l)
    let rest ← userLines n (user + 1) ls
    .ok (rows ++ rest)

/-- `CiteULikeADataManager.read_interaction` (citeulike.py:18-33).  The file is read as bytes; the characters stand
for them. -/
def readUsers (text : List Char) : Except Err (List (Nat × Int)) := userLines U none 0 (lines text)

/-! ## MovieLens -/

/-- `MovieLens1MDataManager.read_interaction` (ML1M.py:26-40) without the conversion of the columns: the separator
`::` is read as two `:` with an empty field between them; columns 0, 2, 4, 6 -/
def readRatings (isNA : List Char → Bool) (text : List Char) : Except Err (List (List (Option (List Char)))) := do
  let (_, rows) ← readCsv isNA ':' 0 text
  if (rows.headD []).length ≤ 6 then .error .keyError
  else .ok (rows.map (fun r => [Mind.column r 0, Mind.column r 2, Mind.column r 4, Mind.column r 6]))

/-- The genre table of `MovieLens100KDataManager.read_item_info` (ML100K.py:55-74): `nonzero()` lists the flags that
are not zero row by row; a missing flag is not zero.  `zero` tells the strings that are read as zero; `genres`
are the names of `_read_genre`. -/
def genreTable (isNA zero : List Char → Bool) (genres : List (List Char)) (text : List Char) :
    Except Err (List (Option (List Char) × List Char)) := do
  let (_, rows) ← readCsv isNA '|' 0 text
  if (rows.headD []).length ≠ 5 + genres.length then .error .valueError
  else .ok (rows.flatMap (fun r =>
    (((r.drop 5).zip genres).filter (fun p => match p.1 with
      | none => true
      | some s => !zero s)).map (fun p => (Mind.column r 0, p.2))))

end Irspack.Datasets
