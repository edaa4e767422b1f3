import Verif.Proofs.Mind

/-!
# C59: reading the MIND data set
-/

namespace Irspack.Mind

open Text Spec

variable {T : Type} (space : Char → Bool) (isNA : List Char → Bool)
  (parseTime : Option (List Char) → Except Err T)

/-! ## The member of the archive -/

/-- a name that ends with a slash and the path -/
def Under (path name : List Char) : Prop := ∃ dir, name = dir ++ '/' :: path

theorem isSuffixOf_iff (path name : List Char) : ('/' :: path).isSuffixOf name = true ↔ Under path name := by
  rw [List.isSuffixOf_iff_suffix]
  constructor
  · rintro ⟨d, h⟩; exact ⟨d, h.symm⟩
  · rintro ⟨d, h⟩; exact ⟨d, h.symm⟩

theorem filter_single {α : Type} (p : α → Bool) (l : List α) (m : α) :
    l.filter p = [m] ↔ ∃ before after, l = before ++ m :: after ∧ p m = true ∧ ∀ x ∈ before ++ after, p x = false := by
  constructor
  · intro h
    induction l with
    | nil => simp at h
    | cons a l ih =>
      rw [List.filter_cons] at h
      split at h
      · rename_i ha
        simp only [List.cons.injEq] at h
        obtain ⟨rfl, h⟩ := h
        refine ⟨[], l, rfl, ha, ?_⟩
        intro x hx
        have := List.filter_eq_nil_iff.mp h x (by simpa using hx)
        simpa using this
      · rename_i ha
        obtain ⟨b, c, rfl, h1, h2⟩ := ih h
        refine ⟨a :: b, c, rfl, h1, ?_⟩
        intro x hx
        rcases List.mem_cons.mp hx with rfl | hx
        · simpa using ha
        · exact h2 x hx
  · rintro ⟨b, c, rfl, h1, h2⟩
    have e1 : b.filter p = [] := List.filter_eq_nil_iff.mpr (fun x hx => by simp [h2 x (by simp [hx])])
    have e2 : c.filter p = [] := List.filter_eq_nil_iff.mpr (fun x hx => by simp [h2 x (by simp [hx])])
    rw [List.filter_append, List.filter_cons, if_pos h1, e1, e2]
    rfl

/-- The member that is read is the one with exactly this name, or, if there is none, the only one with this name
in some directory.  Otherwise there is a `KeyError`. -/
theorem C59_member (names : List (List Char)) (path m : List Char) :
    (member names path = .ok m ↔
      (path ∈ names ∧ m = path) ∨
      (path ∉ names ∧ ∃ before after, names = before ++ m :: after ∧ Under path m ∧
        ∀ x ∈ before ++ after, ¬ Under path x)) ∧
    ∀ e, member names path = .error e → e = .keyError := by
  unfold member
  by_cases hp : path ∈ names
  · simp only [hp, if_true]
    refine ⟨?_, by intro e h; cases h⟩
    simp [eq_comm]
  · simp only [hp, if_false]
    constructor
    · have key : ∀ m, names.filter (fun name => ('/' :: path).isSuffixOf name) = [m] ↔
          ∃ before after, names = before ++ m :: after ∧ Under path m ∧ ∀ x ∈ before ++ after, ¬ Under path x := by
        intro m
        rw [filter_single]
        simp only [isSuffixOf_iff, ← Bool.not_eq_true]
      simp only [false_and, false_or, not_false_eq_true, true_and, ← key]
      split
      · rename_i name h
        rw [h]
        simp [eq_comm]
      · rename_i h
        constructor
        · intro h'; cases h'
        · intro h'
          exact absurd h' (h m)
    · intro e
      split
      · intro h; cases h
      · intro h; cases h; rfl

example : member ["a/x".toList, "MIND/behaviors.tsv".toList] "behaviors.tsv".toList = .ok "MIND/behaviors.tsv".toList ∧
    member ["a/x.tsv".toList, "b/x.tsv".toList] "x.tsv".toList = .error .keyError := by decide

/-! ## Impressions -/

/-- What a cell of the column of impressions means: its pairs; a cell without any candidate means one row without
item. -/
def CellMeans (cell : Option (List Char)) (pairs : List (Option (List Char) × Bool)) : Prop :=
  (∃ s ps, cell = some s ∧ ImpressionsMean space s ps ∧ ps ≠ [] ∧ pairs = ps.map (fun p => (some p.1, p.2))) ∨
  ((cell = none ∨ ∃ s, cell = some s ∧ Words space s []) ∧ pairs = [(none, false)])

/-- the row for a pair of a behaviour, without its position -/
def expected (split : String) (b : Behavior T) (p : Option (List Char) × Bool) :
    Option (List Char) × Option (List Char) × T × Option (List Char) × Bool × String :=
  (b.impressionId, b.userId, b.timestamp, p.1, p.2, split)

/-- a row of the result without its position -/
def withoutPosition (c : Candidate T) :
    Option (List Char) × Option (List Char) × T × Option (List Char) × Bool × String :=
  (c.impressionId, c.userId, c.timestamp, c.item, c.clicked, c.split)

/-- pairs of a cell as the code computes them -/
def cellPairs (cell : Option (List Char)) : List (Option (List Char) × Bool) :=
  (candidatesOf space cell).map (fun c => ((labelsOf c).1, decide ((labelsOf c).2 = some ['1'])))

theorem cellPairs_means (cell : Option (List Char)) : CellMeans space cell (cellPairs space cell) := by
  unfold cellPairs candidatesOf
  cases cell with
  | none => right; exact ⟨.inl rfl, rfl⟩
  | some s =>
    simp only
    by_cases hw : words space s = []
    · rw [if_pos hw]
      right
      exact ⟨.inr ⟨s, rfl, (words_iff space s []).mpr hw⟩, rfl⟩
    · rw [if_neg hw]
      left
      refine ⟨s, (words space s).map pairOf, rfl, (impressionsMean_iff space s _).mpr rfl, by simpa using hw, ?_⟩
      rw [List.map_map, List.map_map]
      apply List.map_congr_left
      intro t _
      simp only [Function.comp]
      rw [labelsOf_item]
      rfl

theorem explode_rows (split : String) (rows : List (Behavior T)) :
    (explode space rows).map (rowOf split) =
      (List.zipWith (fun b ps => ps.map (expected split b)) rows (rows.map (fun b => cellPairs space b.impressions))).flatten := by
  induction rows with
  | nil => rfl
  | cons b rows ih =>
    unfold explode at ih ⊢
    rw [List.flatMap_cons, List.map_append, ih]
    simp only [List.map_cons, List.zipWith_cons_cons, List.flatten_cons]
    congr 1
    simp [cellPairs, rowOf, expected, List.map_map, Function.comp_def]

theorem impressionsOf_ok {split : String} {rows : List (Behavior T)} {cs : List (Candidate T)}
    (h : impressionsOf space split rows = .ok cs) : cs = number split [] (explode space rows) := by
  unfold impressionsOf at h
  split at h
  · cases h
  · split at h
    · cases h
    · cases h; rfl

theorem forall2_map_means (rows : List (Behavior T)) :
    List.Forall₂ (fun b ps => CellMeans space b.impressions ps) rows
      (rows.map (fun b => cellPairs space b.impressions)) := by
  induction rows with
  | nil => exact .nil
  | cons b rows ih => exact .cons (cellPairs_means space b.impressions) ih

/-- Reading impressions gives, row by row in order, one row for each pair of its impressions, in order and with
their multiplicity, with the identifiers and the time of the row; the position of a candidate is the number of
earlier candidates of the same impression. -/
theorem C59_impressions (split : String) (rows : List (Behavior T)) (cs : List (Candidate T))
    (h : impressionsOf space split rows = .ok cs) :
    (∃ pairs, List.Forall₂ (fun b ps => CellMeans space b.impressions ps) rows pairs ∧
      cs.map withoutPosition = (List.zipWith (fun b ps => ps.map (expected split b)) rows pairs).flatten) ∧
    ∀ before c after, cs = before ++ c :: after →
      c.position = (before.map (·.impressionId)).count c.impressionId := by
  have hcs := impressionsOf_ok space h
  constructor
  · refine ⟨_, forall2_map_means space rows, ?_⟩
    rw [← explode_rows, hcs]
    exact number_rows split _ []
  · intro before c after he
    rw [hcs] at he
    simpa using number_position split _ before after c [] he

/-- the meaning of a cell determines its pairs -/
theorem C59_meaning_unique (cell : Option (List Char)) (ps ps' : List (Option (List Char) × Bool))
    (h : CellMeans space cell ps) (h' : CellMeans space cell ps') : ps = ps' := by
  have key : ∀ ps, CellMeans space cell ps → ps = cellPairs space cell := by
    rintro ps (⟨s, qs, rfl, h1, h2, rfl⟩ | ⟨h1, rfl⟩)
    · rw [impressionsMean_iff] at h1
      subst h1
      have hw : words space s ≠ [] := by simpa using h2
      unfold cellPairs candidatesOf
      simp only [hw, if_false, List.map_map]
      apply List.map_congr_left
      intro t _
      simp only [Function.comp]
      rw [labelsOf_item]
      rfl
    · rcases h1 with rfl | ⟨s, rfl, hw⟩
      · rfl
      · rw [words_iff] at hw
        unfold cellPairs candidatesOf
        simp only [hw, if_true]
        rfl
  rw [key ps h, key ps' h']

/-- When the impressions have different identifiers, the candidates of each are numbered from zero. -/
theorem C59_positions (split : String) (rows : List (Behavior T)) (cs : List (Candidate T))
    (h : impressionsOf space split rows = .ok cs) (hn : (rows.map (·.impressionId)).Nodup) :
    ∃ pairs, List.Forall₂ (fun b ps => CellMeans space b.impressions ps) rows pairs ∧
      cs.map (fun c => (c.impressionId, c.position)) =
        (List.zipWith (fun (b : Behavior T) (ps : List (Option (List Char) × Bool)) =>
          (List.range ps.length).map (fun i => (b.impressionId, i))) rows pairs).flatten := by
  refine ⟨_, forall2_map_means space rows, ?_⟩
  rw [impressionsOf_ok space h]
  clear h
  -- a block of candidates of one row
  have block : ∀ (b : Behavior T) (l : List (Option (List Char))) (seen : List (Option (List Char))),
      (number split seen (l.map (fun c => (b, c)))).map (fun c => (c.impressionId, c.position)) =
        (List.range l.length).map (fun i => (b.impressionId, seen.count b.impressionId + i)) := by
    intro b l
    induction l with
    | nil => intro seen; rfl
    | cons c l ih =>
      intro seen
      rw [List.map_cons, number, List.map_cons, ih, List.length_cons, List.range_succ_eq_map, List.map_cons,
        List.map_map]
      simp only [List.count_append, List.count_cons_self, List.count_nil, Nat.add_zero, List.cons.injEq, true_and]
      apply List.map_congr_left
      intro i _
      simp only [Function.comp, Prod.mk.injEq, true_and]
      omega
  have gen : ∀ (rows : List (Behavior T)) (seen : List (Option (List Char))), (rows.map (·.impressionId)).Nodup →
      (∀ b ∈ rows, b.impressionId ∉ seen) →
      (number split seen (explode space rows)).map (fun c => (c.impressionId, c.position)) =
        (List.zipWith (fun (b : Behavior T) (ps : List (Option (List Char) × Bool)) =>
          (List.range ps.length).map (fun i => (b.impressionId, i))) rows
            (rows.map (fun b => cellPairs space b.impressions))).flatten := by
    intro rows
    induction rows with
    | nil => intro seen _ _; rfl
    | cons b rows ih =>
      intro seen hn hs
      rw [List.map_cons, List.nodup_cons] at hn
      unfold explode
      rw [List.flatMap_cons, number_append, List.map_append, block]
      have e : ∀ seen', number split seen' (rows.flatMap fun b => (candidatesOf space b.impressions).map fun c => (b, c)) =
          number split seen' (explode space rows) := fun _ => rfl
      rw [e, ih _ hn.2 ?_]
      · simp only [List.map_cons, List.zipWith_cons_cons, List.flatten_cons]
        congr 1
        simp [cellPairs, List.count_eq_zero_of_not_mem (hs b (by simp))]
      · intro b' hb' hm
        rcases List.mem_append.mp hm with hm | hm
        · exact hs b' (by simp [hb']) hm
        · simp only [List.map_map, List.mem_map, Function.comp] at hm
          obtain ⟨_, _, he⟩ := hm
          exact hn.1 (List.mem_map.mpr ⟨b', hb', he.symm⟩)
  exact gen rows [] hn (by simp)

/-- The exceptions: `AttributeError` exactly when there are rows and no row has impressions; otherwise `KeyError`
exactly when no candidate has a dash. -/
theorem C59_errors (split : String) (rows : List (Behavior T)) (e : Err) :
    impressionsOf space split rows = .error e ↔
      (rows ≠ [] ∧ (∀ b ∈ rows, b.impressions = none) ∧ e = .attributeError) ∨
      (¬ (rows ≠ [] ∧ ∀ b ∈ rows, b.impressions = none) ∧
        (∀ b ∈ rows, ∀ s ts, b.impressions = some s → Words space s ts → ∀ t ∈ ts, '-' ∉ t) ∧ e = .keyError) := by
  have hA : (rows.all (fun b => b.impressions.isNone) = true) ↔ ∀ b ∈ rows, b.impressions = none := by
    simp [List.all_eq_true, Option.isNone_iff_eq_none]
  have hB : (explode space rows).all (fun r => (labelsOf r.2).2.isNone) = true ↔
      ∀ b ∈ rows, ∀ s ts, b.impressions = some s → Words space s ts → ∀ t ∈ ts, '-' ∉ t := by
    rw [List.all_eq_true]
    have hl : ∀ t, (labelsOf (some t)).2.isNone = true ↔ '-' ∉ t := by
      intro t
      rw [← lastDash_none]
      unfold labelsOf
      cases hd : lastDash t <;> simp [hd]
    constructor
    · intro h b hb s ts hs hw t ht
      rw [words_iff] at hw
      subst hw
      have hne : words space s ≠ [] := List.ne_nil_of_mem ht
      have := h (b, some t) (by
        unfold explode
        rw [List.mem_flatMap]
        refine ⟨b, hb, ?_⟩
        unfold candidatesOf
        simp only [hs, hne, if_false]
        exact List.mem_map.mpr ⟨some t, List.mem_map.mpr ⟨t, ht, rfl⟩, rfl⟩)
      exact (hl t).mp this
    · intro h x hx
      unfold explode at hx
      rw [List.mem_flatMap] at hx
      obtain ⟨b, hb, hx⟩ := hx
      obtain ⟨c, hc, rfl⟩ := List.mem_map.mp hx
      cases c with
      | none => rfl
      | some t =>
        rw [hl]
        unfold candidatesOf at hc
        cases hs : b.impressions with
        | none => rw [hs] at hc; simp at hc
        | some s =>
          rw [hs] at hc
          simp only at hc
          split at hc
          · simp at hc
          · obtain ⟨t', ht', he⟩ := List.mem_map.mp hc
            cases he
            exact h b hb s _ hs ((words_iff space s _).mpr rfl) _ ht'
  unfold impressionsOf
  rw [← hB, ← hA]
  by_cases h1 : rows ≠ [] ∧ rows.all (fun b => b.impressions.isNone) = true
  · rw [if_pos h1]
    simp only [Except.error.injEq]
    constructor
    · intro h; exact .inl ⟨h1.1, h1.2, h.symm⟩
    · rintro (⟨_, _, h⟩ | ⟨h, _, _⟩)
      · exact h.symm
      · exact absurd h1 h
  · rw [if_neg h1]
    by_cases h2 : (explode space rows).all (fun r => (labelsOf r.2).2.isNone) = true
    · rw [if_pos h2]
      simp only [Except.error.injEq]
      constructor
      · intro h; exact .inr ⟨h1, h2, h.symm⟩
      · rintro (⟨h, h', _⟩ | ⟨_, _, h⟩)
        · exact absurd ⟨h, h'⟩ h1
        · exact h.symm
    · rw [if_neg h2]
      constructor
      · intro h; cases h
      · rintro (⟨h, h', _⟩ | ⟨_, h, _⟩)
        · exact absurd ⟨h, h'⟩ h1
        · exact absurd h h2

/-- The interactions of a file are exactly the clicked pairs of its rows, in order, with their multiplicity.  Each
has an item, also when some impressions are missing. -/
theorem C59_interactions (split : String) (rows : List (Behavior T)) (cs : List (Candidate T))
    (h : impressionsOf space split rows = .ok cs) :
    (∃ pairs, List.Forall₂ (fun b ps => CellMeans space b.impressions ps) rows pairs ∧
      (cs.filter (fun c => c.clicked)).map dropColumns =
        (List.zipWith (fun (b : Behavior T) (ps : List (Option (List Char) × Bool)) =>
          (ps.filter (fun p => p.2)).map (fun p =>
            (⟨b.impressionId, b.userId, b.timestamp, p.1, split⟩ : Interaction T))) rows pairs).flatten) ∧
    ∀ c ∈ cs, c.clicked = true → c.item ≠ none := by
  have hcs := impressionsOf_ok space h
  have hrows := number_rows split (explode space rows) []
  rw [← hcs] at hrows
  have e0 : (explode space rows).map (rowOf split) = _ := explode_rows space split rows
  refine ⟨⟨_, forall2_map_means space rows, ?_⟩, ?_⟩
  · let f : Option (List Char) × Option (List Char) × T × Option (List Char) × Bool × String → Interaction T :=
      fun x => ⟨x.1, x.2.1, x.2.2.1, x.2.2.2.1, x.2.2.2.2.2⟩
    have h1 : (cs.filter (fun c => c.clicked)).map dropColumns =
        ((cs.map (fun c => (c.impressionId, c.userId, c.timestamp, c.item, c.clicked, c.split))).filter
          (fun x => x.2.2.2.2.1)).map f := by
      rw [List.filter_map, List.map_map]
      rfl
    rw [h1, hrows, e0]
    clear h1 e0 hrows hcs h
    induction rows with
    | nil => rfl
    | cons b rows ih =>
      simp only [List.map_cons, List.zipWith_cons_cons, List.flatten_cons, List.filter_append, List.map_append, ih]
      congr 1
      rw [List.filter_map, List.map_map]
      rfl
  · intro c hc hclick
    have hm : (c.impressionId, c.userId, c.timestamp, c.item, c.clicked, c.split) ∈
        (explode space rows).map (rowOf split) := by
      rw [← hrows]
      exact List.mem_map.mpr ⟨c, hc, rfl⟩
    obtain ⟨⟨b, d⟩, -, he⟩ := List.mem_map.mp hm
    simp only [rowOf, Prod.mk.injEq] at he
    rw [← he.2.2.2.1]
    rw [hclick] at he
    cases d with
    | none => simp [labelsOf] at he
    | some t => rw [labelsOf_item]; simp

/-- With no split given both are read, in the order `train`, `dev`; a known one is read alone; any other is a
`ValueError`.  Retaining the clicked ones only is the same as filtering. -/
theorem C59_splits (z : Archives) (clickedOnly : Bool) :
    (∀ cs, readImpressions space isNA parseTime z none clickedOnly = .ok cs ↔
      ∃ a b, readImpressions space isNA parseTime z (some "train") clickedOnly = .ok a ∧
        readImpressions space isNA parseTime z (some "dev") clickedOnly = .ok b ∧ cs = a ++ b) ∧
    (∀ s, s ≠ "train" → s ≠ "dev" → readImpressions space isNA parseTime z (some s) clickedOnly = .error .valueError) ∧
    (∀ split, readImpressions space isNA parseTime z split true =
      (readImpressions space isNA parseTime z split false).map (fun cs => cs.filter (fun c => c.clicked))) := by
  have one : ∀ s, s = "train" ∨ s = "dev" → ∀ co, readImpressions space isNA parseTime z (some s) co =
      impressionsIn space isNA parseTime z co s := by
    intro s hs co
    simp only [readImpressions, iterSplits, hs, if_true, mapRows, bind, Except.bind]
    cases impressionsIn space isNA parseTime z co s <;> simp
  have filt : ∀ s, impressionsIn space isNA parseTime z true s =
      (impressionsIn space isNA parseTime z false s).map (fun cs => cs.filter (fun c => c.clicked)) := by
    intro s
    simp only [impressionsIn, bind, Except.bind]
    cases readText z s "behaviors.tsv".toList with
    | error e => rfl
    | ok t =>
      simp only
      cases readBehaviors isNA parseTime t with
      | error e => rfl
      | ok rows =>
        simp only
        cases impressionsOf space s rows <;> rfl
  refine ⟨?_, ?_, ?_⟩
  · intro cs
    rw [one "train" (.inl rfl), one "dev" (.inr rfl)]
    simp only [readImpressions, iterSplits, mapRows, bind, Except.bind]
    cases h1 : impressionsIn space isNA parseTime z clickedOnly "train" with
    | error e => simp
    | ok a =>
      cases h2 : impressionsIn space isNA parseTime z clickedOnly "dev" with
      | error e => simp
      | ok b => simp [eq_comm]
  · intro s h1 h2
    simp [readImpressions, iterSplits, h1, h2, bind, Except.bind]
  · intro split
    cases split with
    | some s =>
      by_cases hs : s = "train" ∨ s = "dev"
      · rw [one s hs, one s hs, filt]
      · have h1 : s ≠ "train" := fun h => hs (.inl h)
        have h2 : s ≠ "dev" := fun h => hs (.inr h)
        simp [readImpressions, iterSplits, h1, h2, bind, Except.bind, Except.map]
    | none =>
      simp only [readImpressions, iterSplits, mapRows, bind, Except.bind]
      rw [filt "train", filt "dev"]
      cases impressionsIn space isNA parseTime z false "train" with
      | error e => rfl
      | ok a =>
        cases impressionsIn space isNA parseTime z false "dev" with
        | error e => rfl
        | ok b => simp [Except.map]

/-! ## From the text of the file -/

/-- an entry of the log, as the data set describes it -/
structure Entry where
  impressionId : List Char
  userId : List Char
  time : List Char
  history : List Char
  candidates : List (List Char × List Char)

/-- its fields: candidates are written with their label after a dash, separated by blanks -/
def Entry.fields (e : Entry) : List (List Char) :=
  [e.impressionId, e.userId, e.time, e.history, join ' ' (e.candidates.map (fun p => p.1 ++ '-' :: p.2))]

theorem words_join (hb : space ' ' = true) (ts : List (List Char)) (h : ∀ t ∈ ts, t ≠ [] ∧ ∀ c ∈ t, space c = false) :
    Words space (join ' ' ts) ts := by
  induction ts with
  | nil => exact .nil
  | cons t ts ih =>
    have ht := h t (by simp)
    cases ts with
    | nil => simpa [join] using Words.word t [] [] ht.1 ht.2 (by simp) .nil
    | cons u ts =>
      have := ih (fun x hx => h x (by simp [hx]))
      rw [join]
      exact .word t _ _ ht.1 ht.2 (by simp [hb]) (.space ' ' _ _ hb this)

/-- The reader inverts the format: a file that lists any entries line by line, whose fields contain no separator
and do not begin with a quote, is read back exactly: every candidate of every entry once, in order, with its
item (which may contain dashes), and clicked if its label is `1`. -/
theorem C59_file (hb : space ' ' = true) (hdash : space '-' = false) (z : Archives) (split : String)
    (entries : List Entry) (value : Entry → T)
    (hz : readText z split "behaviors.tsv".toList = .ok (text '\t' (entries.map Entry.fields)))
    (hne : entries ≠ [])
    (hplain : ∀ e ∈ entries, PlainLine '\t' e.fields)
    (hna : ∀ e ∈ entries, isNA e.impressionId = false ∧ isNA e.userId = false ∧
      isNA (join ' ' (e.candidates.map (fun p => p.1 ++ '-' :: p.2))) = false)
    (htime : ∀ e ∈ entries, parseTime (if isNA e.time then none else some e.time) = .ok (value e))
    (hitems : ∀ e ∈ entries, ∀ p ∈ e.candidates, (∀ c ∈ p.1, space c = false) ∧ (∀ c ∈ p.2, space c = false) ∧ '-' ∉ p.2)
    (hcand : ∀ e ∈ entries, e.candidates ≠ []) :
    ∃ cs, impressionsIn space isNA parseTime z false split = .ok cs ∧
      cs.map withoutPosition = entries.flatMap (fun e => e.candidates.map (fun p =>
        (some e.impressionId, some e.userId, value e, some p.1, decide (p.2 = ['1']), split))) := by
  have hlines : ∀ l ∈ entries.map Entry.fields, PlainLine '\t' l ∧ join '\t' l ≠ [] := by
    intro l hl
    obtain ⟨e, he, rfl⟩ := List.mem_map.mp hl
    refine ⟨hplain e he, ?_⟩
    simp [Entry.fields, join]
  have htok := tokenize_text '\t' ⟨by decide, by decide, by decide⟩ _ hlines
  have hcsv : readCsv isNA '\t' 5 (text '\t' (entries.map Entry.fields)) =
      .ok (0, (entries.map Entry.fields).map (fun l => l.map (cell isNA))) := by
    unfold readCsv
    rw [htok]
    cases hentries : entries with
    | nil => exact absurd hentries hne
    | cons e entries' =>
      have hw : ∀ l ∈ entries'.map Entry.fields, l.length ≤ 5 := by
        intro l hl
        obtain ⟨e, _, rfl⟩ := List.mem_map.mp hl
        simp [Entry.fields]
      have hmax : max 5 e.fields.length = 5 := by simp [Entry.fields]
      simp only [bind, Except.bind, List.map_cons, hmax, checkWidth_ok 5 _ hw]
      simp [Entry.fields, Function.comp_def, cells]
  let beh : Entry → Behavior T := fun e =>
    ⟨some e.impressionId, some e.userId, value e, some (join ' ' (e.candidates.map (fun p => p.1 ++ '-' :: p.2)))⟩
  have hrows : readBehaviors isNA parseTime (text '\t' (entries.map Entry.fields)) = .ok (entries.map beh) := by
    unfold readBehaviors
    rw [hcsv]
    simp only [bind, Except.bind, if_true]
    rw [mapRows_forall2]
    rw [List.map_map, List.forall₂_map_left_iff, List.forall₂_map_right_iff, List.forall₂_same]
    intro e he
    obtain ⟨h1, h2, h3⟩ := hna e he
    have ht := htime e he
    simp only [behavior, column, Function.comp, Entry.fields, List.map_cons, List.map_nil, cell, beh]
    simp only [List.getD_cons_succ, List.getD_cons_zero, ht, h1, h2, h3, Except.map]
    rfl
  have hpairs : ∀ e ∈ entries, cellPairs space (beh e).impressions =
      e.candidates.map (fun p => (some p.1, decide (p.2 = ['1']))) := by
    intro e he
    apply C59_meaning_unique space (beh e).impressions _ _ (cellPairs_means space _)
    left
    refine ⟨_, e.candidates.map (fun p => (p.1, decide (p.2 = ['1']))), rfl, ?_, ?_, ?_⟩
    · refine ⟨e.candidates.map (fun p => p.1 ++ '-' :: p.2), ?_, ?_⟩
      · apply words_join space hb
        intro t ht
        obtain ⟨p, hp, rfl⟩ := List.mem_map.mp ht
        refine ⟨by simp, ?_⟩
        intro c hc
        obtain ⟨h1, h2, -⟩ := hitems e he p hp
        rcases List.mem_append.mp hc with hc | hc
        · exact h1 c hc
        · rcases List.mem_cons.mp hc with rfl | hc
          · exact hdash
          · exact h2 c hc
      · rw [List.forall₂_map_left_iff, List.forall₂_map_right_iff, List.forall₂_same]
        intro p hp
        left
        exact ⟨p.2, ⟨rfl, (hitems e he p hp).2.2⟩, by simp⟩
    · simpa using hcand e he
    · rw [List.map_map]; rfl
  have hok : impressionsOf space split (entries.map beh) =
      .ok (number split [] (explode space (entries.map beh))) := by
    cases hr : impressionsOf space split (entries.map beh) with
    | ok cs => rw [impressionsOf_ok space hr]
    | error e =>
      exfalso
      obtain ⟨e0, he0⟩ := List.exists_mem_of_ne_nil _ hne
      have hc0 := hcand e0 he0
      rcases (C59_errors space split _ e).mp hr with ⟨-, h2, -⟩ | ⟨-, h2, -⟩
      · have := h2 (beh e0) (List.mem_map.mpr ⟨e0, he0, rfl⟩)
        simp [beh] at this
      · obtain ⟨p, hp⟩ := List.exists_mem_of_ne_nil _ hc0
        have := h2 (beh e0) (List.mem_map.mpr ⟨e0, he0, rfl⟩) _ (e0.candidates.map (fun p => p.1 ++ '-' :: p.2)) rfl
          (by
            apply words_join space hb
            intro t ht
            obtain ⟨p, hp, rfl⟩ := List.mem_map.mp ht
            refine ⟨by simp, ?_⟩
            intro c hc
            obtain ⟨h1, h2, -⟩ := hitems e0 he0 p hp
            rcases List.mem_append.mp hc with hc | hc
            · exact h1 c hc
            · rcases List.mem_cons.mp hc with rfl | hc
              · exact hdash
              · exact h2 c hc) _ (List.mem_map.mpr ⟨p, hp, rfl⟩)
        exact this (by simp)
  refine ⟨number split [] (explode space (entries.map beh)), ?_, ?_⟩
  · unfold impressionsIn
    rw [hz]
    simp only [bind, Except.bind, hrows, hok]
    rfl
  · have := number_rows split (explode space (entries.map beh)) []
    have e1 : (number split [] (explode space (entries.map beh))).map withoutPosition =
        (explode space (entries.map beh)).map (rowOf split) := this
    rw [e1, explode_rows]
    clear e1 this hok hrows hcsv htok hlines hz hne hplain hna htime hcand hitems
    induction entries with
    | nil => rfl
    | cons e entries ih =>
      simp only [List.map_cons, List.zipWith_cons_cons, List.flatten_cons, List.flatMap_cons]
      rw [hpairs e (by simp)]
      have := ih (fun e' he' => hpairs e' (by simp [he']))
      rw [this, List.map_map]
      rfl

/-- the white space of the examples -/
def blank (c : Char) : Bool := c = ' ' ∨ c = '\t' ∨ c = '\n'

/-- only the empty field is missing -/
def emptyNA (s : List Char) : Bool := s = []

/-- the hypotheses are met: two entries, an item with a dash, three candidates -/
example : ∃ cs, impressionsIn blank emptyNA (fun t => .ok t)
      ⟨[("MIND/behaviors.tsv".toList, "1\tU1\tT\t\tN1-1 N-2-0\n2\tU2\tT\tN1\tN3-1\n".toList)], []⟩ false "train" = .ok cs ∧
    cs.map withoutPosition =
      [(some ['1'], some ['U', '1'], some ['T'], some ['N', '1'], true, "train"),
       (some ['1'], some ['U', '1'], some ['T'], some ['N', '-', '2'], false, "train"),
       (some ['2'], some ['U', '2'], some ['T'], some ['N', '3'], true, "train")] := by
  refine C59_file blank emptyNA (fun t => .ok t) rfl rfl _ "train"
    [⟨['1'], ['U', '1'], ['T'], [], [(['N', '1'], ['1']), (['N', '-', '2'], ['0'])]⟩,
      ⟨['2'], ['U', '2'], ['T'], ['N', '1'], [(['N', '3'], ['1'])]⟩] (fun _ => some ['T'])
    rfl (by simp) ?_ ?_ ?_ ?_ ?_
  · simp [PlainLine, PlainField, Entry.fields, join]
  · simp [emptyNA, join]
  · simp [emptyNA]
  · intro e he p hp
    simp only [List.mem_cons, List.not_mem_nil, or_false] at he
    rcases he with rfl | rfl
    · simp only [List.mem_cons, List.not_mem_nil, or_false] at hp
      rcases hp with rfl | rfl <;> decide
    · simp only [List.mem_cons, List.not_mem_nil, or_false] at hp
      subst hp; decide
  · simp

/-- Impressions without candidates give a row without item: the rows are not exactly the pairs. -/
theorem C59_blank_impressions_counterexample :
    ∃ (rows : List (Behavior Unit)) (cs : List (Candidate Unit)) (c : Candidate Unit),
      impressionsOf blank "dev" rows = .ok cs ∧ c ∈ cs ∧ c.item = none :=
  ⟨[⟨some ['1'], some ['u'], (), some ['a', '-', '1']⟩, ⟨some ['2'], some ['u'], (), some [' ']⟩],
    [⟨some ['1'], some ['u'], (), some ['a'], true, 0, "dev"⟩, ⟨some ['2'], some ['u'], (), none, false, 0, "dev"⟩],
    ⟨some ['2'], some ['u'], (), none, false, 0, "dev"⟩, rfl, by simp, rfl⟩

/-- When two rows have the same impression identifier, the positions of the second go on from those of the first:
the condition of `C59_positions` is needed. -/
theorem C59_repeated_id_counterexample :
    ∃ (rows : List (Behavior Unit)) (cs : List (Candidate Unit)),
      impressionsOf blank "dev" rows = .ok cs ∧ rows.map (fun b => b.impressions) = [some ['a', '-', '1'], some ['b', '-', '0']] ∧
      cs.map (·.position) = [0, 1] :=
  ⟨[⟨some ['1'], some ['u'], (), some ['a', '-', '1']⟩, ⟨some ['1'], some ['v'], (), some ['b', '-', '0']⟩],
    [⟨some ['1'], some ['u'], (), some ['a'], true, 0, "dev"⟩, ⟨some ['1'], some ['v'], (), some ['b'], false, 1, "dev"⟩],
    rfl, rfl, rfl⟩

/-! ## Articles -/

/-- The articles are the rows of the requested files, in order (`train` before `dev`), each identifier once, with
the first row that has it. -/
theorem C59_items (z : Archives) (split : Option String) (rows : List (List (Option (List Char))))
    (h : readItemRows isNA z split = .ok rows) :
    ∃ splits frames, iterSplits split = .ok splits ∧
      List.Forall₂ (fun s frame => itemRows isNA z s = .ok frame) splits frames ∧
      rows.Sublist frames.flatten ∧ (rows.map (fun r => column r 0)).Nodup ∧
      ∀ r, r ∈ rows ↔ FirstOfKey (fun r => column r 0) frames.flatten r := by
  unfold readItemRows at h
  simp only [bind, Except.bind] at h
  cases h1 : iterSplits split with
  | error e => rw [h1] at h; cases h
  | ok splits =>
    rw [h1] at h
    simp only at h
    cases h2 : mapRows (itemRows isNA z) splits with
    | error e => rw [h2] at h; cases h
    | ok frames =>
      rw [h2] at h
      simp only [Except.ok.injEq] at h
      subst h
      refine ⟨splits, frames, rfl, (mapRows_forall2 _ _ _).mp h2, keepFirst_sublist _ _, keepFirst_nodup _ _, ?_⟩
      intro r
      rw [keepFirst_mem]
      unfold FirstOfKey
      simp

/-- a cell of entities and what it means -/
def EntitiesMean {J : Type} (json : List Char → Option (Option (List J))) (cell : Option (List Char)) (l : List J) :
    Prop :=
  ((cell = none ∨ cell = some []) ∧ l = []) ∨ ∃ s, cell = some s ∧ s ≠ [] ∧ json s = some (some l)

theorem parseEntities_iff {J : Type} (json : List Char → Option (Option (List J))) (c : Option (List Char)) (l : List J) :
    parseEntities json c = .ok l ↔ EntitiesMean json c l := by
  unfold parseEntities EntitiesMean
  cases c with
  | none => simp [eq_comm]
  | some s =>
    by_cases hs : s = []
    · subst hs; simp [eq_comm]
    · simp only [hs, if_false]
      cases hj : json s with
      | none => simp [hs, hj]
      | some v =>
        cases v with
        | none => simp [hs, hj]
        | some l' => simp [hs, hj]

theorem parseEntities_error {J : Type} (json : List Char → Option (Option (List J))) (c : Option (List Char)) (e : Err)
    (h : parseEntities json c = .error e) : e = .valueError := by
  unfold parseEntities at h
  cases c with
  | none => cases h
  | some s =>
    by_cases hs : s = []
    · subst hs; simp at h
    · simp only [hs, if_false] at h
      cases hj : json s with
      | none => rw [hj] at h; cases h; rfl
      | some v =>
        rw [hj] at h
        cases v with
        | none => cases h; rfl
        | some l' => cases h

theorem forall2_left {α β : Type} {R : α → β → Prop} {l : List α} {l' : List β} (h : List.Forall₂ R l l') :
    ∀ a ∈ l, ∃ b, R a b := by
  induction h with
  | nil => simp
  | cons h1 _ ih =>
    intro a ha
    rcases List.mem_cons.mp ha with rfl | ha
    · exact ⟨_, h1⟩
    · exact ih a ha

/-- With entities parsed the rows are the same and each carries the lists its two cells mean; this succeeds exactly
when every cell of a kept row means a list, and is a `ValueError` otherwise.  Rows that are dropped are not
parsed. -/
theorem C59_entities {J : Type} (json : List Char → Option (Option (List J))) (z : Archives) (split : Option String)
    (rows : List (List (Option (List Char)))) (h : readItemRows isNA z split = .ok rows) :
    (∀ articles, readItemInfo isNA json z split = .ok articles ↔
      List.Forall₂ (fun r a => a.row = r ∧ EntitiesMean json (column r 6) a.titleEntities ∧
        EntitiesMean json (column r 7) a.abstractEntities) rows articles) ∧
    ∀ e, readItemInfo isNA json z split = .error e → e = .valueError := by
  have zipw : ∀ (rows : List (List (Option (List Char)))) (ts as : List (List J)) (articles : List (Article J)),
      List.Forall₂ (fun r b => parseEntities json (column r 6) = .ok b) rows ts →
      List.Forall₂ (fun r b => parseEntities json (column r 7) = .ok b) rows as →
      (List.zipWith (fun r (e : List J × List J) => (⟨r, e.1, e.2⟩ : Article J)) rows (ts.zip as) = articles ↔
        List.Forall₂ (fun r (a : Article J) => a.row = r ∧ EntitiesMean json (column r 6) a.titleEntities ∧
          EntitiesMean json (column r 7) a.abstractEntities) rows articles) := by
    intro rows
    induction rows with
    | nil =>
      intro ts as articles h1 h2
      cases h1; cases h2
      cases articles <;> simp
    | cons r rows ih =>
      intro ts as articles h1 h2
      cases h1 with
      | cons a1 t1 =>
        cases h2 with
        | cons a2 t2 =>
          cases articles with
          | nil => simp
          | cons a articles =>
            simp only [List.zip_cons_cons, List.zipWith_cons_cons, List.cons.injEq, List.forall₂_cons, ih _ _ _ t1 t2]
            apply and_congr_left
            intro _
            constructor
            · rintro rfl
              exact ⟨rfl, (parseEntities_iff json _ _).mp a1, (parseEntities_iff json _ _).mp a2⟩
            · rintro ⟨e1, e2, e3⟩
              rw [← parseEntities_iff, a1] at e2
              rw [← parseEntities_iff, a2] at e3
              cases e2; cases e3
              obtain ⟨x, y, z⟩ := a
              simp only at e1
              subst e1
              rfl
  have bad : ∀ (i : Nat) (rows : List (List (Option (List Char)))) (e : Err),
      mapRows (fun r => parseEntities json (column r i)) rows = .error e → e = .valueError := by
    intro i rows e he
    obtain ⟨_, r, _, _, h2, _⟩ := mapRows_error _ _ _ he
    exact parseEntities_error json _ _ h2
  unfold readItemInfo
  rw [h]
  simp only [bind, Except.bind]
  have nobody : ∀ (i : Nat) (e : Err), mapRows (fun r => parseEntities json (column r i)) rows = .error e →
      ∃ r ∈ rows, ∀ l, ¬ EntitiesMean json (column r i) l := by
    intro i e he
    obtain ⟨b, r, a, rfl, h2, _⟩ := mapRows_error _ _ _ he
    refine ⟨r, by simp, ?_⟩
    intro l hl
    rw [← parseEntities_iff, h2] at hl
    cases hl
  cases h1 : mapRows (fun r => parseEntities json (column r 6)) rows with
  | error e =>
    refine ⟨?_, by intro e' he'; cases he'; exact bad 6 rows e h1⟩
    intro articles
    constructor
    · intro h; cases h
    · intro hf
      obtain ⟨r, hr, hl⟩ := nobody 6 e h1
      obtain ⟨a, ha⟩ := forall2_left hf r hr
      exact absurd ha.2.1 (hl _)
  | ok ts =>
    simp only
    cases h2 : mapRows (fun r => parseEntities json (column r 7)) rows with
    | error e =>
      refine ⟨?_, by intro e' he'; cases he'; exact bad 7 rows e h2⟩
      intro articles
      constructor
      · intro h; cases h
      · intro hf
        obtain ⟨r, hr, hl⟩ := nobody 7 e h2
        obtain ⟨a, ha⟩ := forall2_left hf r hr
        exact absurd ha.2.2 (hl _)
    | ok as =>
      simp only [Except.ok.injEq]
      refine ⟨?_, by intro e he; cases he⟩
      intro articles
      exact zipw rows ts as articles ((mapRows_forall2 _ _ _).mp h1) ((mapRows_forall2 _ _ _).mp h2)

end Irspack.Mind
