import Verif.Model.Text

/-!
# Reading the MIND data set (/repo/src/irspack/dataset/mind.py:164-302)

Parameters: `space` is `str.isspace`, `isNA` the strings that `read_csv` takes for missing values, `parseTime`
`pd.to_datetime` with the format of mind.py:204, `json` is `json.loads`, whose result is `some l` for a list and
`none` for any other value.  Simplification: `read_csv` turns columns of numerals into numbers; here identifiers
are strings and are compared as such.
-/

namespace Irspack.Mind

open Text

/-- an archive: the names of its members and their contents, in order -/
abbrev Archive := List (List Char × List Char)

/-- the two archives (mind.py:114) -/
structure Archives where
  train : Archive
  dev : Archive

/-- `_validate_split` (mind.py:164-166) and the look-up in `_zipfiles` (mind.py:170) -/
def archiveOf (z : Archives) (split : String) : Except Err Archive :=
  if split = "train" then .ok z.train else if split = "dev" then .ok z.dev else .error .valueError

/-- The member to read (mind.py:171-179): the exact path, or the only name that ends with `/` and the path. -/
def member (names : List (List Char)) (path : List Char) : Except Err (List Char) :=
  if path ∈ names then .ok path
  else
    match names.filter (fun name => ('/' :: path).isSuffixOf name) with
    | [name] => .ok name
    | _ => .error .keyError

/-- `zf.read(member)` (mind.py:180): of several members of the same name the last -/
def content (a : Archive) (name : List Char) : Except Err (List Char) :=
  match a.reverse.find? (fun m => decide (m.1 = name)) with
  | some m => .ok m.2
  | none => .error .keyError

/-- `_read_as_istream` (mind.py:168-180), decoded -/
def readText (z : Archives) (split : String) (path : List Char) : Except Err (List Char) := do
  let a ← archiveOf z split
  let name ← member (a.map (·.1)) path
  content a name

/-- `_iter_splits` (mind.py:182-186) -/
def iterSplits (split : Option String) : Except Err (List String) :=
  match split with
  | none => .ok ["train", "dev"]
  | some s => if s = "train" ∨ s = "dev" then .ok [s] else .error .valueError

/-! ## Behaviours -/

/-- a row of `behaviors.tsv`; the column `history` is not used further -/
structure Behavior (T : Type) where
  impressionId : Option (List Char)
  userId : Option (List Char)
  timestamp : T
  impressions : Option (List Char)

variable {T : Type} (space : Char → Bool) (isNA : List Char → Bool)
  (parseTime : Option (List Char) → Except Err T)

/-- column `i` of a row -/
def column (row : List (Option (List Char))) (i : Nat) : Option (List Char) := row.getD i none

/-- a row with its time converted (mind.py:203-205) -/
def behavior (row : List (Option (List Char))) : Except Err (Behavior T) :=
  (parseTime (column row 2)).map (fun t => ⟨column row 0, column row 1, t, column row 4⟩)

/-- the rows, up to the first that raises -/
def mapRows {α β : Type} (f : α → Except Err β) : List α → Except Err (List β)
  | [] => .ok []
  | a :: as => do
    let b ← f a
    let bs ← mapRows f as
    .ok (b :: bs)

/-- `read_behaviors` (mind.py:188-206) of a file.  When the first line has more than five fields, `read_csv` makes
the first ones the index; this is not modelled. -/
def readBehaviors (text : List Char) : Except Err (List (Behavior T)) := do
  let (lead, rows) ← readCsv isNA '\t' 5 text
  if lead = 0 then mapRows (behavior parseTime) rows else .error .notModelled

/-- `.str.split().explode()` of one cell (mind.py:226): a missing value or no word at all gives one missing value -/
def candidatesOf (impressions : Option (List Char)) : List (Option (List Char)) :=
  match impressions with
  | none => [none]
  | some s => if words space s = [] then [none] else (words space s).map some

/-- `behaviors.loc[candidates.index, …]` (mind.py:228-230): the row of each candidate.  The index is that of
`read_csv`, so every row has its own. -/
def explode (rows : List (Behavior T)) : List (Behavior T × Option (List Char)) :=
  rows.flatMap (fun b => (candidatesOf space b.impressions).map (fun c => (b, c)))

/-- the columns of `.str.rsplit("-", n=1, expand=True)` (mind.py:227) -/
def labelsOf (candidate : Option (List Char)) : Option (List Char) × Option (List Char) :=
  match candidate with
  | none => (none, none)
  | some t =>
    match lastDash t with
    | some (a, b) => (some a, some b)
    | none => (some t, none)

/-- a row of the result -/
structure Candidate (T : Type) where
  impressionId : Option (List Char)
  userId : Option (List Char)
  timestamp : T
  item : Option (List Char)
  clicked : Bool
  position : Nat
  split : String

/-- The columns `item_id`, `clicked`, `position` and `split` (mind.py:231-234); `seen` are the impressions of the
earlier rows.  Simplification: `cumcount` for missing identifiers is that for others. -/
def number (split : String) (seen : List (Option (List Char))) :
    List (Behavior T × Option (List Char)) → List (Candidate T)
  | [] => []
  | (b, c) :: rest =>
    ⟨b.impressionId, b.userId, b.timestamp, (labelsOf c).1, decide ((labelsOf c).2 = some ['1']),
      seen.count b.impressionId, split⟩ :: number split (seen ++ [b.impressionId]) rest

/-- The loop body of `read_impressions` (mind.py:226-234).  A column without any string is read as numbers, and
`.str` raises `AttributeError`; `labels[1]` raises `KeyError` when no candidate has a dash (`labels[0]` when
there is no candidate). -/
def impressionsOf (split : String) (rows : List (Behavior T)) : Except Err (List (Candidate T)) :=
  if rows ≠ [] ∧ rows.all (fun b => b.impressions.isNone) then .error .attributeError
  else if (explode space rows).all (fun r => (labelsOf r.2).2.isNone) then .error .keyError
  else .ok (number split [] (explode space rows))

/-- one round of the loop (mind.py:225-237) -/
def impressionsIn (z : Archives) (clickedOnly : Bool) (split : String) : Except Err (List (Candidate T)) := do
  let text ← readText z split "behaviors.tsv".toList
  let rows ← readBehaviors isNA parseTime text
  let frame ← impressionsOf space split rows
  .ok (if clickedOnly then frame.filter (fun c => c.clicked) else frame)

/-- `read_impressions` (mind.py:208-238) -/
def readImpressions (z : Archives) (split : Option String) (clickedOnly : Bool) :
    Except Err (List (Candidate T)) := do
  let splits ← iterSplits split
  let frames ← mapRows (impressionsIn space isNA parseTime z clickedOnly) splits
  .ok frames.flatten

/-- a row of the interactions -/
structure Interaction (T : Type) where
  impressionId : Option (List Char)
  userId : Option (List Char)
  timestamp : T
  item : Option (List Char)
  split : String

/-- `.drop(columns=["clicked", "position"])` (mind.py:246-248) -/
def dropColumns (c : Candidate T) : Interaction T := ⟨c.impressionId, c.userId, c.timestamp, c.item, c.split⟩

/-- `read_interaction` (mind.py:240-248) -/
def readInteraction (z : Archives) (split : Option String) : Except Err (List (Interaction T)) :=
  (readImpressions space isNA parseTime z split true).map (fun cs => cs.map dropColumns)

/-! ## Articles -/

/-- `_parse_entities` (mind.py:250-257); an error of `json.loads` is a `JSONDecodeError`, a `ValueError` -/
def parseEntities {J : Type} (json : List Char → Option (Option (List J))) (value : Option (List Char)) :
    Except Err (List J) :=
  match value with
  | none => .ok []
  | some s =>
    if s = [] then .ok []
    else match json s with
      | none => .error .valueError
      | some none => .error .valueError
      | some (some l) => .ok l

/-- `drop_duplicates("item_id", keep="first")` (mind.py:281-283); `seen` are the identifiers of earlier rows -/
def keepFirst (seen : List (Option (List Char))) :
    List (List (Option (List Char))) → List (List (Option (List Char)))
  | [] => []
  | r :: rs => if column r 0 ∈ seen then keepFirst seen rs else r :: keepFirst (seen ++ [column r 0]) rs

/-- one file of articles (mind.py:278-280); the index that `read_csv` makes of leading fields is dropped by
`pd.concat(ignore_index=True)` -/
def itemRows (z : Archives) (split : String) : Except Err (List (List (Option (List Char)))) := do
  let text ← readText z split "news.tsv".toList
  let (lead, rows) ← readCsv isNA '\t' 8 text
  .ok (rows.map (fun r => r.drop lead))

/-- `read_item_info(parse_entities=False)` (mind.py:259-283, 287) -/
def readItemRows (z : Archives) (split : Option String) : Except Err (List (List (Option (List Char)))) := do
  let splits ← iterSplits split
  let frames ← mapRows (itemRows isNA z) splits
  .ok (keepFirst [] frames.flatten)

/-- an article with its entities parsed: the row and the two lists -/
structure Article (J : Type) where
  row : List (Option (List Char))
  titleEntities : List J
  abstractEntities : List J

/-- `read_item_info()` (mind.py:259-287).  First all titles are parsed, then all abstracts; both raise
`ValueError`. -/
def readItemInfo {J : Type} (json : List Char → Option (Option (List J))) (z : Archives) (split : Option String) :
    Except Err (List (Article J)) := do
  let rows ← readItemRows isNA z split
  let titles ← mapRows (fun r => parseEntities json (column r 6)) rows
  let abstracts ← mapRows (fun r => parseEntities json (column r 7)) rows
  .ok (List.zipWith (fun r e => ⟨r, e.1, e.2⟩) rows (titles.zip abstracts))

/-! ## Embeddings -/

/-- `_read_embedding` (mind.py:289-294) without the conversion to numbers: column names, and rows as identifier and
cells -/
def readEmbedding (z : Archives) (split : String) (filename : List Char) :
    Except Err (List String × List (Option (List Char) × List (Option (List Char)))) := do
  let text ← readText z split filename
  let (_, rows) ← readCsv isNA '\t' 0 text
  let width := (rows.headD []).length - 1
  .ok ((List.range width).map (fun i => "embedding_" ++ toString i), rows.map (fun r => (column r 0, r.drop 1)))

end Irspack.Mind
