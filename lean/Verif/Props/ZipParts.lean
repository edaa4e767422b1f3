import Verif.Model.ZipParts
import Verif.Model.Datasets
import Mathlib.Tactic

/-!
# C100: archives put together from several downloads
-/

namespace Irspack.ZipParts

variable {B : Type}

/-- The downloads of one attempt: each either raises or delivers what the server has. -/
def NeuMfAttempt (train test : List B) (save : Entries B × Bool) : Prop :=
  ∃ a b, (a = none ∨ a = some train) ∧ (b = none ∨ b = some test) ∧ save = neuMfSave a b

/-- the same for the Amazon data; `metadata` is the unpacked file -/
def AmazonAttempt (gunzip : List B → Option (List B)) (ratings packed : List B) (save : Entries B × Bool) : Prop :=
  ∃ a b, (a = none ∨ a = some ratings) ∧ (b = none ∨ b = some packed) ∧ save = amazonSave gunzip a b

theorem reach_archive {Saves : Entries B × Bool → Prop} {f : File B} (h : Reach Saves f) (es : Entries B)
    (he : f = .archive es) : ∃ save, Saves save ∧ save.1 = es := by
  induction h with
  | fresh => cases he
  | remove _ _ => cases he
  | @attempt f save allowed kill _ hs ih =>
    cases f with
    | archive es' =>
      simp only [construct] at he
      exact ih he
    | broken => simp [construct] at he
    | absent =>
      cases allowed <;> cases kill <;> simp [construct] at he
      exact ⟨save, hs, he⟩

theorem ready_archive {save : Entries B × Bool} {allowed : Bool} {kill : Kill} {f : File B} {es : Entries B}
    (h : (construct save allowed kill f).2 = .ready es) :
    f = .archive es ∨ (f = .absent ∧ save = (es, true)) := by
  cases f with
  | archive es' =>
    simp only [construct, Outcome.ready.injEq] at h
    exact .inl (by rw [h])
  | broken => simp [construct] at h
  | absent =>
    cases allowed <;> cases kill <;> simp [construct] at h
    obtain ⟨s1, s2⟩ := save
    cases s2 <;> simp at h
    exact .inr ⟨rfl, by rw [h]⟩

theorem ready_saved {Saves : Entries B × Bool → Prop} {f : File B} (h : Reach Saves f) {save : Entries B × Bool}
    (hs : Saves save) {allowed : Bool} {kill : Kill} {es : Entries B}
    (hr : (construct save allowed kill f).2 = .ready es) : ∃ save, Saves save ∧ save.1 = es := by
  rcases ready_archive hr with rfl | ⟨rfl, rfl⟩
  · exact reach_archive h es rfl
  · exact ⟨_, hs, rfl⟩

/-- C100 (NeuMF): after any history of attempts, failed downloads and killed processes, if a downloader is
constructed and both texts can be read, the training data are those of the server.  The test data are those
of the server or nothing at all. -/
theorem C100_neumf_partial (train test : List B) (f : File B) (h : Reach (NeuMfAttempt train test) f)
    (save : Entries B × Bool) (hs : NeuMfAttempt train test save) (allowed : Bool) (kill : Kill) (es : Entries B)
    (hr : (construct save allowed kill f).2 = .ready es) (a b : List B) (ht : neuMfTexts es = .ok (a, b)) :
    a = train ∧ (b = test ∨ b = []) := by
  obtain ⟨s, ⟨x, y, hx, hy, rfl⟩, rfl⟩ := ready_saved h hs hr
  rcases hx with rfl | rfl
  · simp [neuMfSave, neuMfTexts, readEntry, List.lookup, bind, Except.bind] at ht
  · rcases hy with rfl | rfl
    · simp [neuMfSave, neuMfTexts, readEntry, List.lookup, bind, Except.bind] at ht
      exact ⟨ht.1.symm, .inr ht.2⟩
    · simp [neuMfSave, neuMfTexts, readEntry, List.lookup, bind, Except.bind] at ht
      exact ⟨ht.1.symm, .inl ht.2.symm⟩

/-- The download of the test data fails with an exception.  The next time the downloader is constructed without
complaint and without downloading, and `read_train_test` returns the training data with an empty test table. -/
theorem C100_neumf_counterexample (U : Chars) (train test : List Char) :
    ∃ (f : File Char) (es : Entries Char),
      Reach (NeuMfAttempt train test) f ∧
      (∀ save allowed kill, (construct save allowed kill f).2 = .ready es) ∧
      neuMfTexts es = .ok (train, []) ∧ Datasets.readTest U [] = .ok [] := by
  refine ⟨.archive [("train", train), ("test", [])], [("train", train), ("test", [])], ?_, fun _ _ _ => rfl, ?_, rfl⟩
  · have := Reach.attempt (Saves := NeuMfAttempt train test) (neuMfSave (some train) none) true .never .fresh
      ⟨some train, none, .inr rfl, .inl rfl, rfl⟩
    exact this
  · simp [neuMfTexts, readEntry, List.lookup, bind, Except.bind]

/-- C100 (Amazon music): after any such history, what a constructed manager can read is what the server has. -/
theorem C100_amazon_partial (gunzip : List B → Option (List B)) (ratings packed : List B) (f : File B)
    (h : Reach (AmazonAttempt gunzip ratings packed) f) (save : Entries B × Bool)
    (hs : AmazonAttempt gunzip ratings packed save) (allowed : Bool) (kill : Kill) (es : Entries B)
    (hr : (construct save allowed kill f).2 = .ready es) :
    (∀ a, readEntry es "amazon-music/ratings.csv" = .ok a → a = ratings) ∧
    (∀ b, readEntry es "amazon-music/music-meta.json" = .ok b → gunzip packed = some b) := by
  obtain ⟨s, ⟨x, y, hx, hy, rfl⟩, rfl⟩ := ready_saved h hs hr
  rcases hx with rfl | rfl
  · simp [amazonSave, readEntry, List.lookup]
  · rcases hy with rfl | rfl
    · simp [amazonSave, readEntry, List.lookup]
    · cases g : gunzip packed with
      | none => simp [amazonSave, readEntry, List.lookup, g]
      | some m => simp [amazonSave, readEntry, List.lookup, g]

/-- The download of the metadata fails.  From then on every construction succeeds without downloading, and the
metadata can never be read. -/
theorem C100_amazon_counterexample (gunzip : List B → Option (List B)) (ratings packed : List B) :
    ∃ f : File B, Reach (AmazonAttempt gunzip ratings packed) f ∧
      ∀ save allowed kill, (construct save allowed kill f).1 = f ∧
        ∃ es, (construct save allowed kill f).2 = .ready es ∧
          readEntry es "amazon-music/ratings.csv" = .ok ratings ∧
          readEntry es "amazon-music/music-meta.json" = .error .keyError := by
  refine ⟨.archive [("amazon-music/ratings.csv", ratings)], ?_, fun _ _ _ => ⟨rfl, _, rfl, ?_, ?_⟩⟩
  · have := Reach.attempt (Saves := AmazonAttempt gunzip ratings packed) (amazonSave gunzip (some ratings) none) true .never
      .fresh ⟨some ratings, none, .inr rfl, .inl rfl, rfl⟩
    exact this
  · simp [readEntry, List.lookup]
  · simp [readEntry, List.lookup]

/-- Whatever is at the path is kept: a second attempt never downloads over it, and a file without a directory
stays and is refused. -/
theorem C100_kept (save : Entries B × Bool) (allowed : Bool) (kill : Kill) (f : File B) (hf : f ≠ .absent) :
    (construct save allowed kill f).1 = f ∧
    (f = .broken → (construct save allowed kill f).2 = .raised .valueError) := by
  cases f with
  | absent => exact absurd rfl hf
  | broken => exact ⟨rfl, fun _ => rfl⟩
  | archive es => exact ⟨rfl, fun h => (by cases h)⟩

/-- A process that is killed while it downloads leaves nothing, or a file that every later construction refuses, whatever is
allowed, until somebody removes it. -/
theorem C100_killed (save : Entries B × Bool) :
    construct save true .beforeFile (.absent : File B) = (.absent, .killed) ∧
    (construct save true .beforeDirectory (.absent : File B)).2 = .killed ∧
    ∀ save' allowed kill,
      (construct save' allowed kill (construct save true .beforeDirectory (.absent : File B)).1).2 = .raised .valueError :=
  ⟨rfl, rfl, fun _ _ _ => rfl⟩

/-- Without a file, an allowed attempt whose downloads succeed gives the data of the server; if a download fails
the constructor raises; if downloading is refused it raises and creates nothing. -/
theorem C100_attempt (train test : List B) (gunzip : List B → Option (List B)) (ratings packed metadata : List B)
    (hg : gunzip packed = some metadata) :
    (∃ es, (construct (neuMfSave (some train) (some test)) true .never .absent).2 = .ready es ∧
      neuMfTexts es = .ok (train, test)) ∧
    (∃ es, (construct (amazonSave gunzip (some ratings) (some packed)) true .never .absent).2 = .ready es ∧
      readEntry es "amazon-music/ratings.csv" = .ok ratings ∧
      readEntry es "amazon-music/music-meta.json" = .ok metadata) ∧
    (∀ a b : Option (List B), a = none ∨ b = none →
      (construct (neuMfSave a b) true .never .absent).2 = .raised .osError ∧
      (construct (amazonSave gunzip a b) true .never .absent).2 = .raised .osError) ∧
    ∀ save kill, construct save false kill (.absent : File B) = (.absent, .raised .runtimeError) := by
  refine ⟨⟨_, rfl, ?_⟩, ⟨[("amazon-music/ratings.csv", ratings), ("amazon-music/music-meta.json", metadata)], ?_, ?_, ?_⟩,
    fun a b h => ?_, fun _ _ => rfl⟩
  · simp [neuMfSave, neuMfTexts, readEntry, List.lookup, bind, Except.bind]
  · simp [construct, amazonSave, hg]
  · simp [readEntry, List.lookup]
  · simp [readEntry, List.lookup]
  · cases a with
    | none => exact ⟨rfl, rfl⟩
    | some a =>
      cases b with
      | none => exact ⟨rfl, rfl⟩
      | some b => simp at h

/-- The hypotheses are met: a history with a failure, a removal and a success. -/
example : Reach (NeuMfAttempt [1, 2] [3]) (.archive [("train", [1, 2]), ("test", [3])]) ∧
    neuMfTexts [("train", [1, 2]), ("test", [3])] = .ok ([1, 2], [3]) := by
  refine ⟨?_, by simp [neuMfTexts, readEntry, List.lookup, bind, Except.bind]⟩
  have h1 := Reach.attempt (Saves := NeuMfAttempt [1, 2] [3]) (neuMfSave none none) true .never .fresh
    ⟨none, none, .inl rfl, .inl rfl, rfl⟩
  have h2 := Reach.attempt (neuMfSave (some [1, 2]) (some [3])) true .never h1.remove
    ⟨some [1, 2], some [3], .inr rfl, .inr rfl, rfl⟩
  exact h2

end Irspack.ZipParts
