import Verif.Model.Catalogue
import Verif.Proofs.Text
import Mathlib.Tactic

/-!
# C101: descriptions of items belong to the items they are attached to
-/

namespace Irspack.Catalogue

open Text Datasets

variable (U : Chars)

/-- The characters that the formats use are neither white space nor digits, and a line feed is white space. -/
structure Ordinary : Prop where
  bar : U.digit '|' = none ∧ U.space '|' = false
  left : U.digit '(' = none ∧ U.space '(' = false
  right : U.digit ')' = none ∧ U.space ')' = false
  line : U.space '\n' = true
  digit : ∀ c, (U.digit c).isSome → U.space c = false

/-! ## Genres -/

theorem takeWhile_all_append {p : Char → Bool} (a : List Char) (ha : ∀ c ∈ a, p c = true) (x : Char) (hx : p x = false)
    (b : List Char) : (a ++ x :: b).takeWhile p = a ∧ (a ++ x :: b).dropWhile p = x :: b := by
  induction a with
  | nil => simp [hx]
  | cons c a ih =>
    have := ih (fun d hd => ha d (by simp [hd]))
    simp [ha c (by simp), this.1, this.2]

theorem stripIndex_append (O : Ordinary U) (name k : List Char) (hk : k ≠ []) (hd : ∀ c ∈ k, (U.digit c).isSome) :
    stripIndex U (name ++ '|' :: k) = name := by
  have e : (name ++ '|' :: k).reverse = k.reverse ++ '|' :: name.reverse := by simp
  obtain ⟨h1, h2⟩ := takeWhile_all_append (p := isDigit U) k.reverse (fun c hc => by
    simp only [isDigit]; exact hd c (by simpa using hc)) '|' (by simp [isDigit, O.bar.1]) name.reverse
  unfold stripIndex
  rw [e]
  simp only [h1, h2]
  rw [if_neg (by simpa using hk)]
  simp

theorem dropWhile_none {p : Char → Bool} (a : List Char) (ha : ∀ c ∈ a, p c = false) : a.dropWhile p = a := by
  cases a with
  | nil => rfl
  | cons c a => simp [ha c (by simp)]

theorem strip_none (s : List Char) (hs : ∀ c ∈ s, U.space c = false) : Threads.strip U s = s := by
  unfold Threads.strip
  rw [dropWhile_none s hs, dropWhile_none _ (fun c hc => hs c (by simpa using hc))]
  simp

theorem wordsFrom_spaces (space : Char → Bool) (sp s : List Char) (h : ∀ c ∈ sp, space c = true) :
    wordsFrom space [] (sp ++ s) = wordsFrom space [] s := by
  induction sp with
  | nil => rfl
  | cons c sp ih =>
    simp [wordsFrom, h c (by simp), ih (fun d hd => h d (by simp [hd]))]

theorem words_append (space : Char → Bool) (w sp s : List Char) (hw : w ≠ []) (hn : ∀ c ∈ w, space c = false)
    (hsp : sp ≠ []) (hs : ∀ c ∈ sp, space c = true) : words space (w ++ (sp ++ s)) = w :: words space s := by
  unfold words
  rw [wordsFrom_append space w _ hn, List.nil_append, wordsFrom_end space w _ hw, wordsFrom_spaces space sp s hs]
  intro c hc
  cases sp with
  | nil => exact absurd rfl hsp
  | cons d sp =>
    simp only [List.cons_append, List.head?_cons, Option.some.injEq] at hc
    exact hc ▸ hs d (by simp)

/-- The genre file: for each genre its name, a bar, its number, and the end of the line. -/
def genreFile (gs : List (List Char × List Char)) : List Char := gs.flatMap (fun g => g.1 ++ '|' :: (g.2 ++ ['\n']))

/-- C101: from a genre file whose names contain no white space, the names are read, in the order of the lines,
without their numbers. -/
theorem C101_genres_partial (O : Ordinary U) (gs : List (List Char × List Char))
    (hn : ∀ g ∈ gs, ∀ c ∈ g.1, U.space c = false) (hk : ∀ g ∈ gs, g.2 ≠ [] ∧ ∀ c ∈ g.2, (U.digit c).isSome) :
    readGenre U (genreFile gs) = gs.map Prod.fst := by
  unfold readGenre
  induction gs with
  | nil => rfl
  | cons g gs ih =>
    have hg := hk g (by simp)
    have hw : ∀ c ∈ g.1 ++ '|' :: g.2, U.space c = false := by
      intro c hc
      simp only [List.mem_append, List.mem_cons] at hc
      rcases hc with hc | rfl | hc
      · exact hn g (by simp) c hc
      · exact O.bar.2
      · exact O.digit c (hg.2 c hc)
    have e : genreFile (g :: gs) = (g.1 ++ '|' :: g.2) ++ (['\n'] ++ genreFile gs) := by
      simp [genreFile]
    rw [e, words_append U.space _ _ _ (by simp) hw (by simp) (by simp [O.line]), List.map_cons, List.map_cons,
      ih (fun g' h' => hn g' (by simp [h'])) (fun g' h' => hk g' (by simp [h'])), strip_none U _ hw,
      stripIndex_append U O g.1 g.2 hg.1 hg.2]

theorem stripIndex_plain (s : List Char) (hs : '|' ∉ s) : stripIndex U s = s := by
  unfold stripIndex
  simp only
  split
  · rfl
  · split
    · rename_i rest h
      exfalso
      apply hs
      have : '|' ∈ s.reverse.dropWhile (isDigit U) := by rw [h]; simp
      exact List.mem_reverse.mp ((List.dropWhile_sublist _).mem this)
    · rfl

/-- C101: only a bar and a number are taken off.  Names without a bar, also those that end in digits, are read as they
stand. -/
theorem C101_genres_unnumbered (O : Ordinary U) (gs : List (List Char))
    (hn : ∀ g ∈ gs, g ≠ [] ∧ ∀ c ∈ g, U.space c = false ∧ c ≠ '|') :
    readGenre U (gs.flatMap (fun g => g ++ ['\n'])) = gs := by
  unfold readGenre
  induction gs with
  | nil => rfl
  | cons g gs ih =>
    have hg := hn g (by simp)
    have e : (g :: gs).flatMap (fun g => g ++ ['\n']) = g ++ (['\n'] ++ gs.flatMap (fun g => g ++ ['\n'])) := by simp
    rw [e, words_append U.space _ _ _ hg.1 (fun c hc => (hg.2 c hc).1) (by simp) (by simp [O.line]), List.map_cons,
      ih (fun g' h' => hn g' (by simp [h'])), strip_none U _ (fun c hc => (hg.2 c hc).1),
      stripIndex_plain U g (fun h => (hg.2 _ h).2 rfl)]

/-- Plain ASCII. -/
def ascii : Chars where
  space := fun c => c = ' ' || c = '\n' || c = '\t' || c = '\r'
  digit := fun c => if c.isDigit then some (c.toNat - 48) else none

theorem ascii_ordinary : Ordinary ascii where
  bar := by decide
  left := by decide
  right := by decide
  line := by decide
  digit := by
    intro c hc
    simp only [ascii] at hc ⊢
    by_cases h : c.isDigit
    · by_contra hs
      simp only [Bool.not_eq_false, Bool.or_eq_true, decide_eq_true_eq] at hs
      rcases hs with ((rfl | rfl) | rfl) | rfl <;> revert h <;> decide
    · simp [h] at hc

/-- The hypotheses are met. -/
example : readGenre ascii (genreFile [("Action".toList, "0".toList), ("Sci-Fi".toList, "15".toList)])
    = ["Action".toList, "Sci-Fi".toList] :=
  C101_genres_partial ascii ascii_ordinary _ (by decide) (by decide)

example : readGenre ascii "Action\nTop10\n".toList = ["Action".toList, "Top10".toList] :=
  C101_genres_unnumbered ascii ascii_ordinary ["Action".toList, "Top10".toList] (by decide)

/-- A genre whose name contains a blank becomes two. -/
theorem C101_genre_blank_counterexample :
    readGenre ascii (genreFile [("Film Noir".toList, "0".toList)]) = ["Film".toList, "Noir".toList] := by decide

/-- The numbers in the genre file are not looked at.  The flags of a movie are labelled by the order of the lines: if
the file lists genre 1 before genre 0, a movie whose only flag is that of genre 0, Action, is a Drama. -/
theorem C101_genre_order_counterexample :
    genreTable (fun s => s.isEmpty) (fun s => s = "0".toList)
      (readGenre ascii (genreFile [("Drama".toList, "1".toList), ("Action".toList, "0".toList)]))
      "7|T|d|v|u|1|0\n".toList = .ok [(some "7".toList, "Drama".toList)] := by decide +kernel

/-! ## Years -/

/-- `y` is the year of a title: the title ends with `(y)`, possibly followed by white space. -/
def IsYearOf (title y : List Char) : Prop :=
  ∃ pre sp, title = pre ++ '(' :: (y ++ ')' :: sp) ∧ y ≠ [] ∧ (∀ c ∈ y, (U.digit c).isSome) ∧
    (∀ c ∈ sp, U.space c = true) ∧ '\n' ∉ pre

theorem of_mem_takeWhile {p : Char → Bool} {l : List Char} {c : Char} (h : c ∈ l.takeWhile p) : p c = true := by
  induction l with
  | nil => simp at h
  | cons d l ih =>
    by_cases hd : p d = true
    · rw [List.takeWhile_cons_of_pos hd, List.mem_cons] at h
      rcases h with rfl | h
      · exact hd
      · exact ih h
    · rw [List.takeWhile_cons_of_neg hd] at h
      cases h

theorem takeWhile_dropWhile_split {p : Char → Bool} (l : List Char) :
    l = l.takeWhile p ++ l.dropWhile p ∧ ∀ c ∈ l.takeWhile p, p c = true :=
  ⟨(List.takeWhile_append_dropWhile).symm, fun _ hc => of_mem_takeWhile hc⟩

/-- C101: the release year of a title is `y` exactly if the title ends with `(y)`, `y` being digits. -/
theorem C101_release_year (O : Ordinary U) (title y : List Char) :
    releaseYear U title = some y ↔ IsYearOf U title y := by
  constructor
  · intro h
    unfold releaseYear at h
    obtain ⟨e0, p0⟩ := takeWhile_dropWhile_split (p := U.space) title.reverse
    split at h
    · rename_i r hr
      obtain ⟨e1, p1⟩ := takeWhile_dropWhile_split (p := isDigit U) r
      by_cases hd : r.takeWhile (isDigit U) = []
      · simp [hd] at h
      · rw [if_neg hd] at h
        split at h
        · rename_i pre hpre
          by_cases hl : '\n' ∈ pre
          · simp [hl] at h
          · rw [if_neg hl] at h
            simp only [Option.some.injEq] at h
            refine ⟨pre.reverse, (title.reverse.takeWhile U.space).reverse, ?_, ?_, ?_, ?_, ?_⟩
            · have e := e0
              rw [hr, e1, hpre] at e
              generalize title.reverse.takeWhile U.space = tw at e ⊢
              have := congrArg List.reverse e
              rw [List.reverse_reverse] at this
              rw [this, ← h]
              simp
            · rw [← h]; simpa using hd
            · intro c hc
              rw [← h] at hc
              have := p1 c (by simpa using hc)
              simpa [isDigit] using this
            · intro c hc
              exact p0 c (by simpa using hc)
            · simpa using hl
        · cases h
    · cases h
  · rintro ⟨pre, sp, rfl, hy, hd, hs, hl⟩
    have e : (pre ++ '(' :: (y ++ ')' :: sp)).reverse = sp.reverse ++ ')' :: (y.reverse ++ '(' :: pre.reverse) := by simp
    obtain ⟨-, h2⟩ := takeWhile_all_append (p := U.space) sp.reverse (fun c hc => hs c (by simpa using hc)) ')' O.right.2
      (y.reverse ++ '(' :: pre.reverse)
    obtain ⟨h3, h4⟩ := takeWhile_all_append (p := isDigit U) y.reverse (fun c hc => by
      simp only [isDigit]; exact hd c (by simpa using hc)) '(' (by simp [isDigit, O.left.1]) pre.reverse
    unfold releaseYear
    rw [e, h2]
    simp only [h3, h4]
    rw [if_neg (by simpa using hy), if_neg (by simpa using hl)]
    simp

/-- C101: each movie gets the year of its own title. -/
theorem C101_release_years (O : Ordinary U) (titles : List (Option (List Char))) :
    List.Forall₂ (fun t y => ∀ z, y = some z ↔ ∃ s, t = some s ∧ IsYearOf U s z) titles (releaseYears U titles) := by
  unfold releaseYears
  rw [List.forall₂_map_right_iff, List.forall₂_same]
  intro t _ z
  cases t with
  | none => simp
  | some s => simp [C101_release_year U O]

example : releaseYear ascii "Blade (Runner) (1982) ".toList = some "1982".toList ∧
    releaseYear ascii "1984".toList = none := by decide

/-! ## CiteULike -/

/-- C101: item `i` of the interactions is described by the document with the number `i + 1`. -/
theorem C101_item_meta {R : Type} (rows : List (Int × R)) (i : Int) :
    (itemMeta rows).lookup i = rows.lookup (i + 1) := by
  induction rows with
  | nil => rfl
  | cons r rows ih =>
    obtain ⟨k, x⟩ := r
    unfold itemMeta at ih ⊢
    simp only [List.map_cons, List.lookup]
    have : (i == k - 1) = (i + 1 == k) := by
      rw [Bool.eq_iff_iff]; simp; omega
    rw [this, ih]

example : (itemMeta [((1 : Int), "a"), (2, "b")]).lookup 1 = some "b" := by decide

/-! ## Amazon music -/

/-- The description that a dictionary gives: its `asin`; title and price if present; the first element of the
categories, or nothing if there are none. -/
def Describes (d : Dict) (m : Meta) : Prop :=
  d.lookup "asin" = some m.asin ∧
  m.title = (d.lookup "title").getD .none ∧ m.price = (d.lookup "price").getD .none ∧
  match d.lookup "categories" with
  | none => m.categories = .none
  | some (.seq (x :: _)) => m.categories = x
  | some (.str (c :: _)) => m.categories = .str [c]
  | some _ => False

theorem metaRow_ok (d : Dict) (m : Meta) : metaRow d = .ok m ↔ Describes d m := by
  obtain ⟨a, t, p, c⟩ := m
  unfold metaRow Describes popD
  cases h1 : d.lookup "asin" with
  | none => simp
  | some a' =>
    cases h2 : d.lookup "categories" with
    | none => simp [Val.first, eq_comm]
    | some v =>
      cases v with
      | none => simp [Val.first]
      | num q => simp [Val.first]
      | str s => cases s <;> simp [Val.first, eq_comm]
      | seq l => cases l <;> simp [Val.first, eq_comm]

/-- C101: the table is returned exactly if every line evaluates to a dictionary with an `asin` and not without a first
category; then it has one row per line, in order, with what that line says.  (Missing: that evaluating lines of a
downloaded file does nothing else, which is false, see below.) -/
theorem C101_amazon_partial {A : Type} (eval : Eval A) (text : List Char) (ms : List Meta) :
    (readMetadata eval text).2 = .ok ms ↔
      List.Forall₂ (fun l m => ∃ d, (eval l).2 = .ok d ∧ Describes d m) (lines text) ms := by
  unfold readMetadata
  generalize lines text = ls
  induction ls generalizing ms with
  | nil => cases ms <;> simp [metaRows]
  | cons l ls ih =>
    rw [metaRows]
    rcases h : eval l with ⟨acts, e | d⟩
    · cases ms <;> simp [h]
    · cases h2 : metaRow d with
      | error e =>
        simp only [h2]
        constructor
        · intro x; cases x
        · intro x
          cases x with
          | cons hx _ =>
            obtain ⟨d', hd, hm⟩ := hx
            rw [h] at hd
            cases hd
            rw [(metaRow_ok d _).mpr hm] at h2
            cases h2
      | ok m =>
        have key : ∀ ms, ((metaRows eval ls).2 = .ok ms ↔ _) := ih
        simp only [h2]
        rcases h3 : metaRows eval ls with ⟨acts', e | ms'⟩
        · simp only [h3]
          constructor
          · intro x; cases x
          · intro x
            cases x with
            | cons _ hx =>
              have := (key _).mpr hx
              rw [h3] at this
              cases this
        · simp only [h3]
          constructor
          · intro x
            cases x
            exact .cons ⟨d, by rw [h], (metaRow_ok d m).mp h2⟩ ((key ms').mp (by rw [h3]))
          · intro x
            cases x with
            | @cons _ m' _ ms'' hx hy =>
              obtain ⟨d', hd, hm⟩ := hx
              rw [h] at hd
              cases hd
              have e1 := (metaRow_ok d m').mpr hm
              rw [h2] at e1
              cases e1
              have := (key ms'').mpr hy
              rw [h3] at this
              cases this
              rfl

/-- C101: reading the descriptions performs no action of its own: if evaluating a line performs none, nor does
reading. -/
theorem C101_amazon_quiet {A : Type} (eval : Eval A) (text : List Char) (h : ∀ l ∈ lines text, (eval l).1 = []) :
    (readMetadata eval text).1 = [] := by
  unfold readMetadata
  revert h
  generalize lines text = ls
  intro h
  induction ls with
  | nil => rfl
  | cons l ls ih =>
    have hl := h l (by simp)
    have ih := ih (fun x hx => h x (by simp [hx]))
    rw [metaRows]
    rcases he : eval l with ⟨acts, e | d⟩
    · rw [he] at hl; exact hl
    · rw [he] at hl
      simp only at hl
      subst hl
      cases h2 : metaRow d with
      | error e => simp [h2]
      | ok m =>
        rcases h3 : metaRows eval ls with ⟨acts', e | ms'⟩ <;> (rw [h3] at ih; simp only at ih; subst ih; simp [h2, h3])

/-- The lines are Python expressions that are evaluated, so whatever the first line of the file says is done: the
downloaded file decides which actions are performed. -/
theorem C101_amazon_eval_counterexample {A : Type} (eval : Eval A) (line rest : List Char) (hn : '\n' ∉ line) :
    ∃ more, (readMetadata eval (line ++ '\n' :: rest)).1 = (eval (line ++ ['\n'])).1 ++ more := by
  have hl : ∀ acc, linesFrom acc (line ++ '\n' :: rest) = (acc ++ line ++ ['\n']) :: linesFrom [] rest := by
    induction line with
    | nil => intro acc; simp [linesFrom]
    | cons c line ih =>
      intro acc
      simp only [List.mem_cons, not_or] at hn
      rw [List.cons_append, linesFrom, if_neg (fun e => hn.1 e.symm), ih hn.2]
      simp
  unfold readMetadata lines
  rw [hl, metaRows]
  simp only [List.nil_append]
  rcases he : eval (line ++ ['\n']) with ⟨acts, e | d⟩
  · exact ⟨[], by simp⟩
  · simp only
    cases h2 : metaRow d with
    | error e => exact ⟨[], by simp⟩
    | ok m =>
      rcases h3 : metaRows eval (linesFrom [] rest) with ⟨acts', e | ms'⟩ <;> exact ⟨acts', rfl⟩

/-- A line that is described, with a title and no price. -/
example : Describes [("asin", .str "B0".toList), ("title", .str "T".toList), ("categories", .seq [.str "Pop".toList])]
    ⟨.str "B0".toList, .str "T".toList, .none, .str "Pop".toList⟩ := by
  refine ⟨rfl, rfl, rfl, rfl⟩

end Irspack.Catalogue
