import Verif.Model.Basic

/-!
# Archives put together from several downloads
(/repo/src/irspack/dataset/downloader.py:17-56, neu_mf.py:20-40, amazon_music.py:15-41)

`NeuMFDownloader` and `AmazonMusicDataManager` write the archive at its final path entry by entry while they
download.  `ZipFile` and its entries are closed by `with`, also when an exception leaves the block: then the
directory of the archive is written with the entries made so far.  An archive whose directory has not been
written cannot be opened.

Simplifications: one process at a time; a process is killed either before the file is created, or before its
directory is written, or after; `urlopen(url).read()` and `urlretrieve` deliver the whole content or raise.
-/

namespace Irspack.ZipParts

variable {B : Type}

/-- the entries of an archive: names and contents -/
abbrev Entries (B : Type) := List (String × List B)

/-- What is at the path. -/
inductive File (B : Type) where
  | absent
  /-- without a directory: `ZipFile` raises `BadZipFile` -/
  | broken
  | archive (entries : Entries B)

/-- `NeuMFDownloader._save_to_zippath` (neu_mf.py:20-27): the entries of the archive when the block is left, and
whether it is left without an exception.  `none` is a download that raises.  The entry is opened before its
content is downloaded, so when that fails the entry is there, empty. -/
def neuMfSave (train test : Option (List B)) : Entries B × Bool :=
  match train with
  | none => ([("train", [])], false)
  | some a =>
    match test with
    | none => ([("train", a), ("test", [])], false)
    | some b => ([("train", a), ("test", b)], true)

/-- `AmazonMusicDataManager._save_to_zippath` (amazon_music.py:15-30).  The contents are downloaded before the entry
is made; `gunzip` raises (`none`) on what is not a complete gzip file. -/
def amazonSave (gunzip : List B → Option (List B)) (ratings metadata : Option (List B)) : Entries B × Bool :=
  match ratings with
  | none => ([], false)
  | some r =>
    match metadata.bind gunzip with
    | none => ([("amazon-music/ratings.csv", r)], false)
    | some m => ([("amazon-music/ratings.csv", r), ("amazon-music/music-meta.json", m)], true)

/-- When a process is killed, if it is. -/
inductive Kill where
  | beforeFile
  | beforeDirectory
  | never

/-- How the constructor ends. -/
inductive Outcome (B : Type) where
  | ready (entries : Entries B)
  | raised (e : Err)
  | killed

/-- `BaseDownloader.__init__` (downloader.py:17-52): `allowed` is `force_download` or the answer `y`; `save` is what
`_save_to_zippath` does with the downloads of this attempt.  `BadZipFile` counts as a `valueError`. -/
def construct (save : Entries B × Bool) (allowed : Bool) (kill : Kill) (f : File B) : File B × Outcome B :=
  match f with
  | .archive es => (.archive es, .ready es)
  | .broken => (.broken, .raised .valueError)
  | .absent =>
    if allowed then
      match kill with
      | .beforeFile => (.absent, .killed)
      | .beforeDirectory => (.broken, .killed)
      | .never => (.archive save.1, if save.2 then .ready save.1 else .raised .osError)
    else (.absent, .raised .runtimeError)

/-- `self.zf.open(name)`, `self.zf.read(name)`: `KeyError` if there is no such entry (downloader.py:54-56,
neu_mf.py:30, 39). -/
def readEntry (es : Entries B) (name : String) : Except Err (List B) :=
  match es.lookup name with
  | some b => .ok b
  | none => .error .keyError

/-- The texts that `read_train_test` parses (neu_mf.py:29-40). -/
def neuMfTexts (es : Entries B) : Except Err (List B × List B) := do
  let a ← readEntry es "train"
  let b ← readEntry es "test"
  .ok (a, b)

/-- Files after any history of constructions, each with downloads allowed by `Saves`, and of removals. -/
inductive Reach (Saves : Entries B × Bool → Prop) : File B → Prop
  | fresh : Reach Saves .absent
  | attempt {f} (save allowed kill) : Reach Saves f → Saves save → Reach Saves (construct save allowed kill f).1
  | remove {f} : Reach Saves f → Reach Saves .absent

end Irspack.ZipParts
