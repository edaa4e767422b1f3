import Verif.Model.Datasets

/-!
# Descriptions of items
(/repo/src/irspack/dataset/movielens/ML100K.py:50-53, movielens/ML1M.py:42-56, amazon_music.py:39-53,
citeulike.py:35-40)
-/

namespace Irspack.Catalogue

open Text Datasets

variable (U : Chars)

/-! ## MovieLens -/

/-- `re.sub(r"\|\d+$", "", s)` (ML100K.py:53) on a string without white space at the end -/
def stripIndex (s : List Char) : List Char :=
  let r := s.reverse
  if r.takeWhile (isDigit U) = [] then s
  else
    match r.dropWhile (isDigit U) with
    | '|' :: rest => rest.reverse
    | _ => s

/-- `MovieLens100KDataManager._read_genre` (ML100K.py:50-53), decoded -/
def readGenre (text : List Char) : List (List Char) :=
  (words U.space text).map (fun i => stripIndex U (Threads.strip U i))

/-- the group of `^.*\((?P<release_year>\d+)\)\s*$` in a title (ML1M.py:52-54).  `.` does not match a line feed.
There is only one way to match: the last characters are white space, `)`, digits, `(`. -/
def releaseYear (title : List Char) : Option (List Char) :=
  match title.reverse.dropWhile U.space with
  | ')' :: r =>
    if r.takeWhile (isDigit U) = [] then none
    else
      match r.dropWhile (isDigit U) with
      | '(' :: pre => if '\n' ∈ pre then none else some (r.takeWhile (isDigit U)).reverse
      | _ => none
  | _ => none

/-- the column `release_year` (ML1M.py:52-55), without conversion to numbers; a missing title gives a missing
year -/
def releaseYears (titles : List (Option (List Char))) : List (Option (List Char)) :=
  titles.map (fun t => t.bind (releaseYear U))

/-! ## CiteULike -/

/-- `CiteULikeADataManager.read_item_meta` (citeulike.py:35-40) on the rows of the file: the number of the document
and the other columns -/
def itemMeta {R : Type} (rows : List (Int × R)) : List (Int × R) := rows.map (fun r => (r.1 - 1, r.2))

/-! ## Amazon music -/

/-- values in the dictionaries of `music-meta.json` -/
inductive Val where
  | none
  | str (s : List Char)
  | num (q : Int)
  | seq (l : List Val)

abbrev Dict := List (String × Val)

/-- one row: `music_id`, `title`, `price`, `categories` -/
structure Meta where
  asin : Val
  title : Val
  price : Val
  categories : Val

/-- `v[0]` -/
def Val.first : Val → Except Err Val
  | .seq (x :: _) => .ok x
  | .seq [] => .error .indexError
  | .str (c :: _) => .ok (.str [c])
  | .str [] => .error .indexError
  | .num _ => .error .typeError
  | .none => .error .typeError

/-- `meta.pop(key, default)` as far as its result goes: no key is popped twice (amazon_music.py:46-48) -/
def popD (d : Dict) (key : String) (default : Val) : Val := (d.lookup key).getD default

/-- one row (amazon_music.py:43-50) -/
def metaRow (d : Dict) : Except Err Meta :=
  match d.lookup "asin" with
  | none => .error .keyError
  | some asin =>
    match (popD d "categories" (.seq [.none])).first with
    | .error e => .error e
    | .ok c => .ok ⟨asin, popD d "title" .none, popD d "price" .none, c⟩

/-- What `eval` of a line does: the actions it performs, in order, and its value or exception. -/
abbrev Eval (A : Type) := List Char → List A × Except Err Dict

/-- the loop of `AmazonMusicDataManager.read_metadata` (amazon_music.py:40-50): the actions performed and the rows.
Simplification: a value that is not a dictionary is an exception of `eval`. -/
def metaRows {A : Type} (eval : Eval A) : List (List Char) → List A × Except Err (List Meta)
  | [] => ([], .ok [])
  | l :: ls =>
    match eval l with
    | (acts, .error e) => (acts, .error e)
    | (acts, .ok d) =>
      match metaRow d with
      | .error e => (acts, .error e)
      | .ok m =>
        match metaRows eval ls with
        | (acts', .error e) => (acts ++ acts', .error e)
        | (acts', .ok ms) => (acts ++ acts', .ok (m :: ms))

/-- `AmazonMusicDataManager.read_metadata` (amazon_music.py:39-53), decoded -/
def readMetadata {A : Type} (eval : Eval A) (text : List Char) : List A × Except Err (List Meta) := metaRows eval (lines text)

end Irspack.Catalogue
