import Verif.Props.Mind

/-!
# C59: the archives, the interactions of both splits and the embeddings of MIND
-/

namespace Irspack.Mind

open Text Spec

variable {T : Type} (space : Char → Bool) (isNA : List Char → Bool)
  (parseTime : Option (List Char) → Except Err T)

theorem find_reverse {α : Type} (p : α → Bool) (l : List α) (m : α) :
    l.reverse.find? p = some m ↔ ∃ before after, l = before ++ m :: after ∧ p m = true ∧ ∀ x ∈ after, p x = false := by
  rw [List.find?_eq_some_iff_append]
  constructor
  · rintro ⟨h, as, bs, h1, h2⟩
    refine ⟨bs.reverse, as.reverse, ?_, h, ?_⟩
    · have := congrArg List.reverse h1
      simpa using this
    · intro x hx
      simpa using h2 x (by simpa using hx)
  · rintro ⟨b, a, rfl, h, h2⟩
    refine ⟨h, a.reverse, b.reverse, by simp, ?_⟩
    intro x hx
    simpa using h2 x (by simpa using hx)

/-- What is read from an archive is the content of the member that `C59_member` describes; when several members
have its name, of the last of them. -/
theorem C59_read (z : Archives) (split : String) (path t : List Char) :
    readText z split path = .ok t ↔
      ∃ a name before after, ((split = "train" ∧ a = z.train) ∨ (split = "dev" ∧ a = z.dev)) ∧
        member (a.map (·.1)) path = .ok name ∧ a = before ++ (name, t) :: after ∧ ∀ m ∈ after, m.1 ≠ name := by
  have hc : ∀ a name, content a name = .ok t ↔
      ∃ before after, a = before ++ (name, t) :: after ∧ ∀ m ∈ after, m.1 ≠ name := by
    intro a name
    unfold content
    cases hf : a.reverse.find? (fun m => decide (m.1 = name)) with
    | none =>
      simp only [reduceCtorEq, false_iff]
      rintro ⟨b, c, rfl, -⟩
      simp at hf
    | some m =>
      obtain ⟨b, c, rfl, h1, h2⟩ := (find_reverse _ _ _).mp hf
      obtain ⟨n, t'⟩ := m
      simp only [decide_eq_true_eq] at h1
      subst h1
      simp only [Except.ok.injEq]
      constructor
      · rintro rfl
        exact ⟨b, c, rfl, fun x hx => by simpa using h2 x hx⟩
      · rintro ⟨b', c', h, h3⟩
        have : (b' ++ (n, t) :: c').reverse.find? (fun m => decide (m.1 = n)) = some (n, t) :=
          (find_reverse _ _ _).mpr ⟨b', c', rfl, by simp, fun x hx => by simpa using h3 x hx⟩
        rw [← h, hf] at this
        simpa using this
  have hm : ∀ a, (do let name ← member (a.map (·.1)) path; content a name : Except Err (List Char)) = .ok t ↔
      ∃ name before after, member (a.map (·.1)) path = .ok name ∧ a = before ++ (name, t) :: after ∧
        ∀ m ∈ after, m.1 ≠ name := by
    intro a
    simp only [bind, Except.bind]
    cases member (a.map (·.1)) path with
    | error e => simp
    | ok name =>
      simp only [hc, Except.ok.injEq]
      constructor
      · rintro ⟨b, c, h⟩; exact ⟨name, b, c, rfl, h⟩
      · rintro ⟨n, b, c, rfl, h⟩; exact ⟨b, c, h⟩
  unfold readText archiveOf
  by_cases h1 : split = "train"
  · subst h1
    simp only [if_true, bind, Except.bind] at hm ⊢
    rw [hm]
    constructor
    · rintro ⟨n, b, c, h⟩; exact ⟨z.train, n, b, c, .inl ⟨trivial, rfl⟩, h⟩
    · rintro ⟨a, n, b, c, ⟨-, rfl⟩ | ⟨h, -⟩, h'⟩
      · exact ⟨n, b, c, h'⟩
      · exact absurd h (by decide)
  · by_cases h2 : split = "dev"
    · subst h2
      simp only [h1, if_false, if_true, bind, Except.bind] at hm ⊢
      rw [hm]
      constructor
      · rintro ⟨n, b, c, h⟩; exact ⟨z.dev, n, b, c, .inr ⟨trivial, rfl⟩, h⟩
      · rintro ⟨a, n, b, c, ⟨h, -⟩ | ⟨-, rfl⟩, h'⟩
        · exact absurd h (by decide)
        · exact ⟨n, b, c, h'⟩
    · simp [h1, h2, bind, Except.bind]

/-- C59 (what is refused).  Another split is a `ValueError`; a file that is not in the archive, or that is there
under more than one prefix and not under its own name, is a `KeyError`. -/
theorem C59_read_rejections (z : Archives) (split : String) (path : List Char) :
    (split ≠ "train" → split ≠ "dev" → readText z split path = .error .valueError) ∧
    (∀ a, (split = "train" ∧ a = z.train) ∨ (split = "dev" ∧ a = z.dev) → path ∉ a.map (·.1) →
      ((a.map (·.1)).filter (fun name => ('/' :: path).isSuffixOf name)).length ≠ 1 →
      readText z split path = .error .keyError) := by
  constructor
  · intro h1 h2
    simp [readText, archiveOf, h1, h2, bind, Except.bind]
  · intro a ha hp hl
    have hm : member (a.map (·.1)) path = .error .keyError := by
      unfold member
      rw [if_neg hp]
      cases h : (a.map (·.1)).filter (fun name => ('/' :: path).isSuffixOf name) with
      | nil => rfl
      | cons x l =>
        cases l with
        | nil => rw [h] at hl; simp at hl
        | cons y l => rfl
    rcases ha with ⟨rfl, rfl⟩ | ⟨rfl, rfl⟩
    · show (member (z.train.map (·.1)) path >>= fun name => content z.train name) = _
      rw [hm]; rfl
    · show (member (z.dev.map (·.1)) path >>= fun name => content z.dev name) = _
      rw [hm]; rfl

example : readText ⟨[("d/a".toList, "1".toList), ("b".toList, "2".toList), ("d/a".toList, "3".toList)], []⟩ "train"
    "a".toList = .error .keyError ∧
    readText ⟨[("a".toList, "1".toList), ("b".toList, "2".toList), ("a".toList, "3".toList)], []⟩ "train"
    "a".toList = .ok "3".toList := ⟨rfl, rfl⟩

/-- The interactions are those of the requested splits, one file after the other: exactly the clicked pairs of all
rows of the file, in order, with their multiplicity and the name of the split. -/
theorem C59_read_interactions (z : Archives) (split : Option String) (xs : List (Interaction T))
    (h : readInteraction space isNA parseTime z split = .ok xs) :
    ∃ splits parts, ((split = none ∧ splits = ["train", "dev"]) ∨ (∃ s, split = some s ∧ splits = [s])) ∧
      List.Forall₂ (fun s part => ∃ t rows pairs, readText z s "behaviors.tsv".toList = .ok t ∧
        readBehaviors isNA parseTime t = .ok rows ∧
        List.Forall₂ (fun (b : Behavior T) ps => CellMeans space b.impressions ps) rows pairs ∧
        part = (List.zipWith (fun (b : Behavior T) (ps : List (Option (List Char) × Bool)) =>
          (ps.filter (fun p => p.2)).map (fun p =>
            (⟨b.impressionId, b.userId, b.timestamp, p.1, s⟩ : Interaction T))) rows pairs).flatten) splits parts ∧
      xs = parts.flatten := by
  unfold readInteraction readImpressions at h
  simp only [bind, Except.bind] at h
  cases h1 : iterSplits split with
  | error e => rw [h1] at h; cases h
  | ok splits =>
    rw [h1] at h
    simp only at h
    cases h2 : mapRows (impressionsIn space isNA parseTime z true) splits with
    | error e => rw [h2] at h; cases h
    | ok frames =>
      rw [h2] at h
      simp only [Except.map, Except.ok.injEq] at h
      subst h
      refine ⟨splits, frames.map (fun cs => cs.map dropColumns), ?_, ?_, by rw [List.map_flatten]⟩
      · unfold iterSplits at h1
        cases split with
        | none => cases h1; exact .inl ⟨rfl, rfl⟩
        | some s =>
          simp only at h1
          split at h1
          · cases h1; exact .inr ⟨s, rfl, rfl⟩
          · cases h1
      · rw [List.forall₂_map_right_iff]
        refine List.Forall₂.imp ?_ ((mapRows_forall2 _ _ _).mp h2)
        intro s cs hcs
        simp only [impressionsIn, bind, Except.bind] at hcs
        cases h3 : readText z s "behaviors.tsv".toList with
        | error e => rw [h3] at hcs; cases hcs
        | ok t =>
          rw [h3] at hcs
          simp only at hcs
          cases h4 : readBehaviors isNA parseTime t with
          | error e => rw [h4] at hcs; cases hcs
          | ok rows =>
            rw [h4] at hcs
            simp only at hcs
            cases h5 : impressionsOf space s rows with
            | error e => rw [h5] at hcs; cases hcs
            | ok frame =>
              rw [h5] at hcs
              simp only [if_true, Except.ok.injEq] at hcs
              subst hcs
              obtain ⟨⟨pairs, h6, h7⟩, -⟩ := C59_interactions space s rows frame h5
              exact ⟨t, rows, pairs, rfl, h4, h6, h7⟩

example : readInteraction blank emptyNA (fun t => .ok t)
    ⟨[("behaviors.tsv".toList, "1\tU1\tT\t\tN1-1 N-2-0\n".toList)],
     [("behaviors.tsv".toList, "2\tU2\tT\tN1\tN3-1\n".toList)]⟩ none =
    .ok [⟨some ['1'], some ['U', '1'], some ['T'], some ['N', '1'], "train"⟩,
      ⟨some ['2'], some ['U', '2'], some ['T'], some ['N', '3'], "dev"⟩] := rfl

/-- A file of embeddings, each an identifier and `w` numerals, is read back: `w` columns `embedding_0`, …,
and one row per line, in order, with its identifier and its numerals in order. -/
theorem C59_embeddings (z : Archives) (split : String) (filename : List Char) (w : Nat)
    (entries : List (List Char × List (List Char))) (hne : entries ≠ [])
    (hz : readText z split filename = .ok (text '\t' (entries.map (fun e => e.1 :: e.2))))
    (hplain : ∀ e ∈ entries, PlainLine '\t' (e.1 :: e.2) ∧ e.1 ≠ [])
    (hw : ∀ e ∈ entries, e.2.length = w) :
    ∃ names rows, readEmbedding isNA z split filename = .ok (names, rows) ∧ names.length = w ∧
      (∀ i < w, names[i]? = some ("embedding_" ++ toString i)) ∧
      List.Forall₂ (fun e r => r.1 = (if isNA e.1 then none else some e.1) ∧
        List.Forall₂ (fun f c => c = if isNA f then none else some f) e.2 r.2) entries rows := by
  have hlines : ∀ l ∈ entries.map (fun e => e.1 :: e.2), PlainLine '\t' l ∧ join '\t' l ≠ [] := by
    intro l hl
    obtain ⟨e, he, rfl⟩ := List.mem_map.mp hl
    obtain ⟨h1, h2⟩ := hplain e he
    refine ⟨h1, ?_⟩
    cases h3 : e.2 <;> simp [join, h2]
  have htok := tokenize_text '\t' ⟨by decide, by decide, by decide⟩ _ hlines
  have hcsv : readCsv isNA '\t' 0 (text '\t' (entries.map (fun e => e.1 :: e.2))) =
      .ok (0, entries.map (fun e => cell isNA e.1 :: e.2.map (cell isNA))) := by
    unfold readCsv
    rw [htok]
    cases entries with
    | nil => exact absurd rfl hne
    | cons e entries =>
      have he := hw e (by simp)
      have hw' : ∀ l ∈ entries.map (fun e => e.1 :: e.2), l.length ≤ w + 1 := by
        intro l hl
        obtain ⟨e, he, rfl⟩ := List.mem_map.mp hl
        have := hw e (by simp [he])
        simp [this]
      have hmax : max 0 (e.1 :: e.2).length = w + 1 := by simp [he]
      simp only [bind, Except.bind, List.map_cons, hmax, checkWidth_ok _ _ hw']
      simp only [if_true, List.map_map, Except.ok.injEq, Prod.mk.injEq, true_and, List.cons.injEq]
      refine ⟨by simp [cells, he], ?_⟩
      apply List.map_congr_left
      intro e' h'
      simp [cells, hw e' (by simp [h'])]
  refine ⟨(List.range w).map (fun i => "embedding_" ++ toString i),
    entries.map (fun e => (cell isNA e.1, e.2.map (cell isNA))), ?_, by simp, ?_, ?_⟩
  · unfold readEmbedding
    rw [hz]
    simp only [bind, Except.bind, hcsv]
    congr 2
    · cases entries with
      | nil => exact absurd rfl hne
      | cons e entries =>
        have he := hw e (by simp)
        simp [he]
    · rw [List.map_map]
      rfl
  · intro i hi
    simp [hi]
  · rw [List.forall₂_map_right_iff, List.forall₂_same]
    intro e he
    refine ⟨rfl, ?_⟩
    rw [List.forall₂_map_right_iff, List.forall₂_same]
    intro f _
    rfl

example : readEmbedding emptyNA ⟨[], [("x/e.vec".toList, "Q1\t0.5\t-1\nQ2\t2\t3\n".toList)]⟩ "dev" "e.vec".toList =
    .ok (["embedding_0", "embedding_1"], [(some ['Q', '1'], [some "0.5".toList, some "-1".toList]),
      (some ['Q', '2'], [some ['2'], some ['3']])]) := rfl

/-- The condition on the number of fields is needed.  With a tabulator after the last numeral of every line, one more
column of missing values is read. -/
theorem C59_trailing_tab_counterexample : ∃ (z : Archives),
    readText z "train" "e.vec".toList = .ok "Q1\t0.5\t-1\t\nQ2\t2\t3\t\n".toList ∧
    readEmbedding emptyNA z "train" "e.vec".toList =
      .ok (["embedding_0", "embedding_1", "embedding_2"], [(some ['Q', '1'], [some "0.5".toList, some "-1".toList, none]),
      (some ['Q', '2'], [some ['2'], some ['3'], none])]) :=
  ⟨⟨[("e.vec".toList, "Q1\t0.5\t-1\t\nQ2\t2\t3\t\n".toList)], []⟩, rfl, rfl⟩

end Irspack.Mind
