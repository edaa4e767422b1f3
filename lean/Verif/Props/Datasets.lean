import Verif.Proofs.Datasets
import Verif.Props.Tables

/-!
# C67: the one-versus-many test data of NeuMF;  C68: the interactions of CiteULike;  C69: MovieLens
-/

namespace Irspack.Datasets

open Text Spec Spec.Numeral Threads

variable (U : Chars)

/-- a string of digits with its value -/
def IsNumber (p : List Char × Int) : Prop :=
  p.1 ≠ [] ∧ (∀ c ∈ p.1, (U.digit c).isSome = true) ∧ IntegerLiteral U p.1 p.2

/-- a line of the test file: a user and an item in parentheses, possibly with white space, then the negative items -/
structure TestEntry where
  user : List Char × Int
  item : List Char × Int
  negatives : List (List Char × Int)
  s1 : List Char
  s2 : List Char
  s3 : List Char
  s4 : List Char

/-- its text without the line feed -/
def TestEntry.body (e : TestEntry) : List Char :=
  '(' :: (e.s1 ++ e.user.1 ++ e.s2 ++ ',' :: (e.s3 ++ e.item.1 ++ e.s4 ++ ')' :: '\t' :: join '\t' (e.negatives.map (·.1))))

/-- it is well-formed -/
structure TestEntry.Ok (e : TestEntry) : Prop where
  user : IsNumber U e.user
  item : IsNumber U e.item
  some : e.negatives ≠ []
  negatives : ∀ p ∈ e.negatives, IsNumber U p
  spaces : ∀ c ∈ e.s1 ++ e.s2 ++ e.s3 ++ e.s4, U.space c = true ∧ c ≠ '\n'

/-- what it says: the item is positive for the user, the others are not -/
def TestEntry.rows (e : TestEntry) : List TestRow :=
  ⟨e.user.2, e.item.2, true⟩ :: e.negatives.map (fun p => ⟨e.user.2, p.2, false⟩)

variable {U}

theorem number_chars (hU : U.Sane) (hP : Punctuation U) {p : List Char × Int} (h : IsNumber U p) (c : Char) (hc : c ∈ p.1) :
    isDigit U c = true ∧ c ≠ '\n' ∧ c ≠ '\t' ∧ c ≠ '(' := by
  have hd := h.2.1 c hc
  refine ⟨hd, ?_, ?_, ?_⟩
  · rintro rfl; rw [hU.disjoint _ hP.newline] at hd; cases hd
  · rintro rfl; rw [hU.disjoint _ hP.tab] at hd; cases hd
  · rintro rfl; rw [(hP.plain '(' (by simp)).2] at hd; cases hd

theorem body_line (hU : U.Sane) (hP : Punctuation U) (e : TestEntry) (h : e.Ok U) : '\n' ∉ e.body := by
  have hsp : ∀ c, c ∈ e.s1 ++ e.s2 ++ e.s3 ++ e.s4 → c ≠ '\n' := fun c hc => (h.spaces c hc).2
  intro hm
  unfold TestEntry.body at hm
  simp only [List.mem_cons, List.mem_append] at hm
  simp only [List.mem_append] at hsp
  have n1 : '\n' ≠ '(' := by decide
  have n2 : '\n' ≠ ',' := by decide
  have n3 : '\n' ≠ ')' := by decide
  have n4 : '\n' ≠ '\t' := by decide
  rcases hm with h0 | (((h0 | h0) | h0) | (h0 | (((h0 | h0) | h0) | (h0 | h0 | h0))))
  · exact n1 h0
  · exact hsp _ (.inl (.inl (.inl h0))) rfl
  · exact (number_chars hU hP h.user _ h0).2.1 rfl
  · exact hsp _ (.inl (.inl (.inr h0))) rfl
  · exact n2 h0
  · exact hsp _ (.inl (.inr h0)) rfl
  · exact (number_chars hU hP h.item _ h0).2.1 rfl
  · exact hsp _ (.inr h0) rfl
  · exact n3 h0
  · exact n4 h0
  · rcases mem_join _ _ _ h0 with h1 | ⟨s, hs, h1⟩
    · exact n4 h1
    · obtain ⟨p, hp, rfl⟩ := List.mem_map.mp hs
      exact (number_chars hU hP (h.negatives p hp) _ h1).2.1 rfl

theorem testLine_of (hU : U.Sane) (hP : Punctuation U) (e : TestEntry) (h : e.Ok U) :
    testLine U (e.body ++ ['\n']) = .ok e.rows := by
  have hsp : ∀ c, c ∈ e.s1 ++ e.s2 ++ e.s3 ++ e.s4 → U.space c = true := fun c hc => (h.spaces c hc).1
  simp only [List.mem_append] at hsp
  let rest := '\t' :: join '\t' (e.negatives.map (·.1)) ++ ['\n']
  let p := e.s1 ++ e.user.1 ++ e.s2 ++ ',' :: (e.s3 ++ e.item.1 ++ e.s4 ++ [')'])
  have hform : e.body ++ ['\n'] = '(' :: (e.s1 ++ e.user.1 ++ e.s2 ++ ',' :: (e.s3 ++ e.item.1 ++ e.s4 ++ ')' :: rest)) := by
    simp [TestEntry.body, rest]
  have hform2 : e.body ++ ['\n'] = '(' :: (p ++ rest) := by
    simp [TestEntry.body, rest, p]
  have hmatch : matchPrefix U (e.body ++ ['\n']) = some (e.user.1, e.item.1, rest) := by
    rw [hform]
    exact matchPrefix_of hU hP e.s1 e.user.1 e.s2 e.s3 e.item.1 e.s4 rest
      (fun c hc => hsp c (.inl (.inl (.inl hc)))) h.user.1 h.user.2.1 (fun c hc => hsp c (.inl (.inl (.inr hc))))
      (fun c hc => hsp c (.inl (.inr hc))) h.item.1 h.item.2.1 (fun c hc => hsp c (.inr hc))
  have hsearch : search U (e.body ++ ['\n']) = some (e.user.1, e.item.1) := by
    rw [hform2] at hmatch ⊢
    rw [search, hmatch]
  have hnopar : '(' ∉ rest := by
    intro hm
    simp only [rest, List.cons_append, List.mem_cons, List.mem_append, List.not_mem_nil, or_false] at hm
    rcases hm with h0 | h0 | h0
    · exact absurd h0 (by decide)
    · rcases mem_join _ _ _ h0 with h1 | ⟨s, hs, h1⟩
      · exact absurd h1 (by decide)
      · obtain ⟨q, hq, rfl⟩ := List.mem_map.mp hs
        exact (number_chars hU hP (h.negatives q hq) _ h1).2.2.2 rfl
    · exact absurd h0 (by decide)
  have hremove : removeFrom U 0 (e.body ++ ['\n']) = rest := by
    rw [hform2] at hmatch ⊢
    rw [removeFrom, hmatch]
    simp only
    have : (p ++ rest).length - rest.length = p.length := by simp
    rw [this, removeFrom_skip, removeFrom_none rest hnopar]
  have hnums : ∀ s ∈ e.negatives.map (·.1), s ≠ [] ∧ ∀ c ∈ s, isDigit U c = true := by
    intro s hs
    obtain ⟨q, hq, rfl⟩ := List.mem_map.mp hs
    exact ⟨(h.negatives q hq).1, (h.negatives q hq).2.1⟩
  have hstrip : strip U rest = join '\t' (e.negatives.map (·.1)) := by
    obtain ⟨⟨c, t, h1, h2⟩, t', c', h3, h4⟩ := join_digits_ends (U := U) (e.negatives.map (·.1)) (by simpa using h.some) hnums
    have := strip_of (U := U) (pre := ['\t']) (core := join '\t' (e.negatives.map (·.1))) (post := ['\n'])
      (by simp [hP.tab]) (by simp [hP.newline]) ⟨c, t, h1, digit_not_space hU h2⟩ ⟨t', c', h3, digit_not_space hU h4⟩
    simpa [rest] using this
  have hsplit : splitOn '\t' (join '\t' (e.negatives.map (·.1))) = e.negatives.map (·.1) := by
    apply splitOn_join _ _ (by simpa using h.some)
    intro s hs hm
    obtain ⟨q, hq, rfl⟩ := List.mem_map.mp hs
    exact (number_chars hU hP (h.negatives q hq) _ hm).2.2.1 rfl
  have hints : Mind.mapRows (toInt U) (e.negatives.map (·.1)) = .ok (e.negatives.map (·.2)) := by
    rw [Mind.mapRows_forall2, List.forall₂_map_left_iff, List.forall₂_map_right_iff, List.forall₂_same]
    intro q hq
    exact (toInt_iff hU _ _).mpr (h.negatives q hq).2.2
  unfold testLine
  rw [hsearch]
  simp only [bind, Except.bind]
  rw [(toInt_iff hU _ _).mpr h.user.2.2, (toInt_iff hU _ _).mpr h.item.2.2, hremove, hstrip, hsplit, hints]
  simp [TestEntry.rows, Function.comp_def]

/-- The test data of a well-formed file are the rows its lines say, in order, without those whose user and item
occur before: each pair once, with its first label. -/
theorem C67_test_data (hU : U.Sane) (hP : Punctuation U) (entries : List TestEntry) (h : ∀ e ∈ entries, e.Ok U) :
    ∃ rows, readTest U (entries.flatMap (fun e => e.body ++ ['\n'])) = .ok rows ∧
      rows.Sublist (entries.flatMap TestEntry.rows) ∧
      (rows.map (fun r => (r.user, r.item))).Nodup ∧
      ∀ r, r ∈ rows ↔ FirstOfKey (fun r => (r.user, r.item)) (entries.flatMap TestEntry.rows) r := by
  refine ⟨dropRepeated [] (entries.flatMap TestEntry.rows), ?_, dropRepeated_sublist _ _, dropRepeated_nodup _ _, ?_⟩
  · unfold readTest
    rw [lines_flatMap TestEntry.body entries (fun e he => body_line hU hP e (h e he))]
    have : Mind.mapRows (testLine U) (entries.map (fun e => e.body ++ ['\n'])) = .ok (entries.map TestEntry.rows) := by
      rw [Mind.mapRows_forall2, List.forall₂_map_left_iff, List.forall₂_map_right_iff, List.forall₂_same]
      intro e he
      exact testLine_of hU hP e (h e he)
    rw [this]
    simp only [bind, Except.bind]
    rw [← List.flatMap_def]
  · intro r
    rw [dropRepeated_mem]
    unfold FirstOfKey
    simp

/-- When no user has two lines, the item of each line is positive, all its other items are negative, and there is
nothing else. -/
theorem C67_labels (hU : U.Sane) (hP : Punctuation U) (entries : List TestEntry) (h : ∀ e ∈ entries, e.Ok U)
    (hn : (entries.map (fun e => e.user.2)).Nodup) (rows : List TestRow)
    (hr : readTest U (entries.flatMap (fun e => e.body ++ ['\n'])) = .ok rows) (r : TestRow) :
    r ∈ rows ↔ ∃ e ∈ entries, r.user = e.user.2 ∧
      ((r.item = e.item.2 ∧ r.positive = true) ∨
       (r.item ≠ e.item.2 ∧ r.positive = false ∧ ∃ p ∈ e.negatives, r.item = p.2)) := by
  obtain ⟨rows', hr', -, -, hmem⟩ := C67_test_data hU hP entries h
  rw [hr] at hr'
  cases hr'
  rw [hmem]
  clear hmem hr h
  induction entries with
  | nil => simp [FirstOfKey]
  | cons e entries ih =>
    rw [List.map_cons, List.nodup_cons] at hn
    have huser : ∀ (es : List TestEntry) (y : TestRow), y ∈ es.flatMap TestEntry.rows → ∃ e ∈ es, y.user = e.user.2 := by
      intro es y hy
      obtain ⟨e', he', hy⟩ := List.mem_flatMap.mp hy
      refine ⟨e', he', ?_⟩
      rcases List.mem_cons.mp hy with rfl | hy
      · rfl
      · obtain ⟨p, _, rfl⟩ := List.mem_map.mp hy; rfl
    have hrows : ∀ y ∈ e.rows, y.user = e.user.2 := by
      intro y hy
      rcases List.mem_cons.mp hy with rfl | hy
      · rfl
      · obtain ⟨p, _, rfl⟩ := List.mem_map.mp hy; rfl
    have hsplit : FirstOfKey (fun r : TestRow => (r.user, r.item)) ((e :: entries).flatMap TestEntry.rows) r ↔
        FirstOfKey (fun r : TestRow => (r.user, r.item)) e.rows r ∨
        FirstOfKey (fun r : TestRow => (r.user, r.item)) (entries.flatMap TestEntry.rows) r := by
      rw [List.flatMap_cons]
      constructor
      · rintro ⟨b, a, he, hb⟩
        rcases List.append_eq_append_iff.mp he with ⟨c, h1, h2⟩ | ⟨c, h1, h2⟩
        · right
          exact ⟨c, a, h2, fun y hy => hb y (by rw [h1]; simp [hy])⟩
        · cases c with
          | nil =>
            right
            refine ⟨[], a, by simpa using h2.symm, by simp⟩
          | cons x c =>
            left
            simp only [List.cons_append, List.cons.injEq] at h2
            obtain ⟨rfl, -⟩ := h2
            exact ⟨b, c, h1, hb⟩
      · rintro (⟨b, a, he, hb⟩ | ⟨b, a, he, hb⟩)
        · exact ⟨b, a ++ entries.flatMap TestEntry.rows, by rw [he]; simp, hb⟩
        · refine ⟨e.rows ++ b, a, by rw [he]; simp, ?_⟩
          intro y hy
          rcases List.mem_append.mp hy with hy | hy
          · intro heq
            have hru : r.user = e.user.2 := by
              rw [← (Prod.mk.inj heq).1]; exact hrows y hy
            obtain ⟨e', he', hu⟩ := huser entries r (by rw [he]; simp)
            exact hn.1 (List.mem_map.mpr ⟨e', he', by rw [← hu, hru]⟩)
          · exact hb y hy
    have hone : FirstOfKey (fun r : TestRow => (r.user, r.item)) e.rows r ↔ r.user = e.user.2 ∧
        ((r.item = e.item.2 ∧ r.positive = true) ∨
         (r.item ≠ e.item.2 ∧ r.positive = false ∧ ∃ p ∈ e.negatives, r.item = p.2)) := by
      constructor
      · rintro ⟨b, a, he, hb⟩
        cases b with
        | nil =>
          simp only [TestEntry.rows, List.nil_append, List.cons.injEq] at he
          rw [← he.1]
          exact ⟨rfl, .inl ⟨rfl, rfl⟩⟩
        | cons x b =>
          simp only [TestEntry.rows, List.cons_append, List.cons.injEq] at he
          have hm : r ∈ e.negatives.map (fun p => (⟨e.user.2, p.2, false⟩ : TestRow)) := by rw [he.2]; simp
          obtain ⟨p, hp, rfl⟩ := List.mem_map.mp hm
          refine ⟨rfl, .inr ⟨?_, rfl, p, hp, rfl⟩⟩
          have := hb x (by simp)
          rw [← he.1] at this
          intro heq
          apply this
          show (e.user.2, e.item.2) = (e.user.2, p.2)
          rw [← heq]
      · obtain ⟨ru, ri, rp⟩ := r
        simp only
        rintro ⟨rfl, (⟨rfl, rfl⟩ | ⟨h1, rfl, p, hp, rfl⟩)⟩
        · exact ⟨[], e.negatives.map (fun p => ⟨e.user.2, p.2, false⟩), rfl, by simp⟩
        · -- the first negative with this item
          have : ∀ l : List (List Char × Int), p ∈ l → ∃ b q a, l = b ++ q :: a ∧ q.2 = p.2 ∧ ∀ y ∈ b, y.2 ≠ p.2 := by
            intro l
            induction l with
            | nil => simp
            | cons x l ih =>
              intro hm
              by_cases hx : x.2 = p.2
              · exact ⟨[], x, l, rfl, hx, by simp⟩
              · rcases List.mem_cons.mp hm with rfl | hm
                · exact absurd rfl hx
                · obtain ⟨b, q, a, rfl, h1, h2⟩ := ih hm
                  refine ⟨x :: b, q, a, rfl, h1, ?_⟩
                  intro y hy
                  rcases List.mem_cons.mp hy with rfl | hy
                  · exact hx
                  · exact h2 y hy
          obtain ⟨b, q, a, hl, hq, hb⟩ := this e.negatives hp
          refine ⟨⟨e.user.2, e.item.2, true⟩ :: b.map (fun p => ⟨e.user.2, p.2, false⟩),
            a.map (fun p => ⟨e.user.2, p.2, false⟩), ?_, ?_⟩
          · simp [TestEntry.rows, hl, hq]
          · intro y hy
            rcases List.mem_cons.mp hy with rfl | hy
            · intro heq; exact h1 (Prod.mk.inj heq).2.symm
            · obtain ⟨y', hy', rfl⟩ := List.mem_map.mp hy
              intro heq; exact hb y' hy' (Prod.mk.inj heq).2
    rw [hsplit, hone, ih hn.2]
    simp [List.exists_mem_cons_iff]

/-- ASCII -/
def ascii : Chars where
  space c := c = ' ' ∨ c = '\t' ∨ c = '\n' ∨ c = '\r'
  digit c := if '0' ≤ c ∧ c ≤ '9' then some (c.toNat - '0'.toNat) else none

theorem ascii_sane : ascii.Sane := by
  constructor
  · rintro c (rfl | rfl | rfl) <;> decide
  · intro c hc
    simp only [ascii, decide_eq_true_eq] at hc
    rcases hc with rfl | rfl | rfl | rfl <;> decide

theorem ascii_punctuation : Punctuation ascii :=
  ⟨by rintro c (rfl | rfl | rfl) <;> decide, by decide, by decide⟩

theorem ascii_digit (c : Char) (n : Nat) (h : ascii.digit c = some n) : IsNumber ascii ([c], n) := by
  refine ⟨by simp, by simp [h], ?_⟩
  rw [← pyInt_iff ascii_sane]
  have hs : ascii.space c = false := digit_not_space ascii_sane (by simp [isDigit, h])
  have h1 : c ≠ '+' := by rintro rfl; rw [show ascii.digit '+' = none by decide] at h; cases h
  have h2 : c ≠ '-' := by rintro rfl; rw [show ascii.digit '-' = none by decide] at h; cases h
  have hst : strip ascii [c] = [c] := by simp [strip, hs]
  unfold pyInt
  rw [hst]
  split
  · rename_i heq; exact absurd (List.cons.inj heq).1 h1
  · rename_i heq; exact absurd (List.cons.inj heq).1 h2
  · simp [natural, digitsAfter, h]

/-- the hypotheses are met by the file `( 1 ,2)⇥3⇥2⇥4`, and the positive item among the negatives is dropped -/
example : (⟨(['1'], 1), (['2'], 2), [(['3'], 3), (['2'], 2), (['4'], 4)], [' '], [' '], [], []⟩ : TestEntry).Ok ascii ∧
    readTest ascii "( 1 ,2)\t3\t2\t4\n".toList = .ok [⟨1, 2, true⟩, ⟨1, 3, false⟩, ⟨1, 4, false⟩] := by
  refine ⟨⟨ascii_digit _ 1 rfl, ascii_digit _ 2 rfl, by simp, ?_, ?_⟩, by decide +kernel⟩
  · intro p hp
    simp only [List.mem_cons, List.not_mem_nil, or_false] at hp
    rcases hp with rfl | rfl | rfl
    · exact ascii_digit _ 3 rfl
    · exact ascii_digit _ 2 rfl
    · exact ascii_digit _ 4 rfl
  · decide

/-- The condition in `C67_labels` is needed: when a user has two lines and the positive item of the second is among
the negatives of the first, it is recorded as negative. -/
theorem C67_repeated_user_counterexample : ∃ (text : List Char) (rows : List TestRow),
    text = "(1,5)\t6\n(1,6)\t7\n".toList ∧ readTest ascii text = .ok rows ∧
    (⟨1, 6, true⟩ : TestRow) ∉ rows ∧ (⟨1, 6, false⟩ : TestRow) ∈ rows :=
  ⟨_, [⟨1, 5, true⟩, ⟨1, 6, false⟩, ⟨1, 7, false⟩], rfl, by decide +kernel, by decide, by decide⟩

theorem readTest_stops (hU : U.Sane) (hP : Punctuation U) (entries : List TestEntry) (h : ∀ e ∈ entries, e.Ok U)
    (body : List Char) (hb : '\n' ∉ body) (after : List Char) (err : Err)
    (hline : testLine U (body ++ ['\n']) = .error err) :
    readTest U (entries.flatMap (fun e => e.body ++ ['\n']) ++ (body ++ '\n' :: after)) = .error err := by
  have hl : lines (entries.flatMap (fun e => e.body ++ ['\n']) ++ (body ++ '\n' :: after)) =
      entries.map (fun e => e.body ++ ['\n']) ++ (body ++ ['\n']) :: lines after := by
    unfold lines
    induction entries with
    | nil => simpa using linesFrom_body body hb after []
    | cons e entries ih =>
      have := linesFrom_body e.body (body_line hU hP e (h e (by simp)))
        (entries.flatMap (fun e => e.body ++ ['\n']) ++ (body ++ '\n' :: after)) []
      rw [ih (fun x hx => h x (by simp [hx]))] at this
      simpa using this
  unfold readTest
  rw [hl]
  have hm : Mind.mapRows (testLine U) (entries.map (fun e => e.body ++ ['\n']) ++ (body ++ ['\n']) :: lines after) = .error err := by
    clear hl
    induction entries with
    | nil => rw [List.map_nil, List.nil_append, Mind.mapRows, hline]; rfl
    | cons e entries ih =>
      rw [List.map_cons, List.cons_append, Mind.mapRows, testLine_of hU hP e (h e (by simp)),
        ih (fun x hx => h x (by simp [hx]))]
      rfl
  rw [hm]
  rfl

/-- A line without a parenthesis, for instance a blank one, is an `AssertionError`, whatever follows. -/
theorem C67_no_pair (hU : U.Sane) (hP : Punctuation U) (entries : List TestEntry) (h : ∀ e ∈ entries, e.Ok U)
    (body : List Char) (hb : '\n' ∉ body) (hp : '(' ∉ body) (after : List Char) :
    readTest U (entries.flatMap (fun e => e.body ++ ['\n']) ++ (body ++ '\n' :: after)) = .error .assertionError := by
  apply readTest_stops hU hP entries h body hb
  have : ∀ s : List Char, '(' ∉ s → search U s = none := by
    intro s
    induction s with
    | nil => intro _; rfl
    | cons c s ih =>
      intro hs
      rw [search, matchPrefix_other c s (fun e => hs (by simp [e]))]
      exact ih (fun hm => hs (by simp [hm]))
  unfold testLine
  rw [this _ (by simpa using hp)]

/-- A line with a pair and no negative items is a `ValueError`. -/
theorem C67_no_negatives (hU : U.Sane) (hP : Punctuation U) (entries : List TestEntry) (h : ∀ e ∈ entries, e.Ok U)
    (u i : List Char × Int) (hu : IsNumber U u) (hi : IsNumber U i) (after : List Char) :
    readTest U (entries.flatMap (fun e => e.body ++ ['\n']) ++ ('(' :: (u.1 ++ ',' :: (i.1 ++ [')'])) ++ '\n' :: after)) =
      .error .valueError := by
  apply readTest_stops hU hP entries h
  · intro hm
    simp only [List.mem_cons, List.mem_append, List.not_mem_nil, or_false] at hm
    rcases hm with h0 | h0 | h0 | h0 | h0
    · exact absurd h0 (by decide)
    · exact (number_chars hU hP hu _ h0).2.1 rfl
    · exact absurd h0 (by decide)
    · exact (number_chars hU hP hi _ h0).2.1 rfl
    · exact absurd h0 (by decide)
  · have hmatch : matchPrefix U ('(' :: (u.1 ++ ',' :: (i.1 ++ [')'])) ++ ['\n']) = some (u.1, i.1, ['\n']) := by
      have := matchPrefix_of hU hP [] u.1 [] [] i.1 [] ['\n'] (by simp) hu.1 hu.2.1 (by simp) (by simp) hi.1 hi.2.1 (by simp)
      simpa using this
    have hform : '(' :: (u.1 ++ ',' :: (i.1 ++ [')'])) ++ ['\n'] = '(' :: ((u.1 ++ ',' :: (i.1 ++ [')'])) ++ ['\n']) := rfl
    rw [hform] at hmatch ⊢
    have hsearch : search U ('(' :: ((u.1 ++ ',' :: (i.1 ++ [')'])) ++ ['\n'])) = some (u.1, i.1) := by
      rw [search, hmatch]
    have hremove : removeFrom U 0 ('(' :: ((u.1 ++ ',' :: (i.1 ++ [')'])) ++ ['\n'])) = ['\n'] := by
      rw [removeFrom, hmatch]
      simp only
      have hlen : ((u.1 ++ ',' :: (i.1 ++ [')'])) ++ ['\n']).length - ['\n'].length = (u.1 ++ ',' :: (i.1 ++ [')'])).length := by
        simp
      rw [hlen, removeFrom_skip, removeFrom_none _ (by decide)]
    have hstrip : strip U ['\n'] = [] := by simp [strip, hP.newline]
    have hempty : toInt U [] = .error .valueError := by
      unfold toInt
      cases hp : pyInt U [] with
      | none => rfl
      | some n => simp [pyInt, strip, natural] at hp
    unfold testLine
    rw [hsearch]
    simp only [bind, Except.bind]
    rw [(toInt_iff hU _ _).mpr hu.2.2, (toInt_iff hU _ _).mpr hi.2.2, hremove, hstrip]
    simp [splitOn, Mind.mapRows, hempty, bind, Except.bind]

example : readTest ascii "(1,5)\t6\n\n".toList = .error .assertionError ∧
    readTest ascii "(1,5)\n".toList = .error .valueError := by
  constructor <;> decide +kernel

/-! ## CiteULike -/

/-- what a line that is not blank means for the user of this number -/
def LineMeans (U : Chars) (line : List Char) (user : Nat) (rows : List (Nat × Int)) : Prop :=
  ∃ count ids n items, Words U.space line (count :: ids) ∧ IntegerLiteral U count n ∧
    List.Forall₂ (IntegerLiteral U) ids items ∧ n = items.length ∧ rows = items.map (fun i => (user, i))

theorem userLine_iff (hU : U.Sane) (previous : Option Int) (user : Nat) (l : List Char) (hl : words U.space l ≠ [])
    (m : Option Int) (rows : List (Nat × Int)) :
    userLine U previous user (words U.space l) = .ok (m, rows) →  LineMeans U l user rows := by
  intro h
  cases hw : words U.space l with
  | nil => exact absurd hw hl
  | cons w ws =>
    rw [hw] at h
    unfold userLine at h
    simp only [bind, Except.bind] at h
    cases h1 : toInt U w with
    | error e => rw [h1] at h; cases h
    | ok n =>
      rw [h1] at h
      simp only at h
      cases h2 : Mind.mapRows (toInt U) ws with
      | error e => rw [h2] at h; cases h
      | ok items =>
        rw [h2] at h
        simp only at h
        split at h
        · rename_i hn
          cases h
          have h3 := (Mind.mapRows_forall2 _ _ _).mp h2
          refine ⟨w, ws, n, items, (words_iff _ _ _).mpr hw, (toInt_iff hU _ _).mp h1, ?_, ?_, rfl⟩
          · exact h3.imp (fun a b hab => (toInt_iff hU _ _).mp hab)
          · rw [hn, h3.length_eq]
        · cases h

theorem userLine_of (hU : U.Sane) (previous : Option Int) (user : Nat) (l : List Char) (rows : List (Nat × Int))
    (h : LineMeans U l user rows) : ∃ m, userLine U previous user (words U.space l) = .ok (m, rows) := by
  obtain ⟨w, ws, n, items, h1, h2, h3, rfl, rfl⟩ := h
  rw [(words_iff _ _ _).mp h1]
  refine ⟨some (items.length : Int), ?_⟩
  unfold userLine
  have h5 : toInt U w = .ok (items.length : Int) := (toInt_iff hU _ _).mpr h2
  have h4 : Mind.mapRows (toInt U) ws = .ok items :=
    (Mind.mapRows_forall2 _ _ _).mpr (h3.imp (fun a b hab => (toInt_iff hU _ _).mpr hab))
  simp only [bind, Except.bind, h4, h5]
  rw [if_pos (by rw [h3.length_eq])]

/-- For a file without blank lines the result is: for each line in order, one row for each of its items in order and
with their multiplicity, the user being the number of the line from zero.  It succeeds exactly when each line
consists of integers of which the first counts the others. -/
theorem C68_interactions (hU : U.Sane) (bodies : List (List Char)) (hb : ∀ b ∈ bodies, '\n' ∉ b)
    (hblank : ∀ b ∈ bodies, ¬ Words U.space (b ++ ['\n']) []) (rows : List (Nat × Int)) :
    readUsers U (bodies.flatMap (fun b => b ++ ['\n'])) = .ok rows ↔
      ∃ rowss, List.Forall₂ (fun (l : List Char × Nat) rs => LineMeans U (l.1 ++ ['\n']) l.2 rs) bodies.zipIdx rowss ∧
        rows = rowss.flatten := by
  unfold readUsers
  rw [lines_flatMap (fun b => b) bodies hb]
  clear hb
  have gen : ∀ (bodies : List (List Char)) (user : Nat) (previous : Option Int) (rows : List (Nat × Int)),
      (∀ b ∈ bodies, ¬ Words U.space (b ++ ['\n']) []) →
      (userLines U previous user (bodies.map (fun b => b ++ ['\n'])) = .ok rows ↔
      ∃ rowss, List.Forall₂ (fun (l : List Char × Nat) rs => LineMeans U (l.1 ++ ['\n']) l.2 rs) (bodies.zipIdx user) rowss ∧
        rows = rowss.flatten) := by
    intro bodies
    induction bodies with
    | nil =>
      intro user previous rows _
      simp [userLines, eq_comm]
    | cons b bodies ih =>
      intro user previous rows hbl
      have hw : words U.space (b ++ ['\n']) ≠ [] := by
        intro h; exact hbl b (by simp) ((words_iff _ _ _).mpr h)
      rw [List.map_cons, userLines, List.zipIdx_cons]
      simp only [bind, Except.bind]
      constructor
      · intro h
        cases h1 : userLine U previous user (words U.space (b ++ ['\n'])) with
        | error e => rw [h1] at h; cases h
        | ok r =>
          obtain ⟨m, rs⟩ := r
          rw [h1] at h
          simp only at h
          cases h2 : userLines U m (user + 1) (bodies.map (fun b => b ++ ['\n'])) with
          | error e => rw [h2] at h; cases h
          | ok rest =>
            rw [h2] at h
            simp only [Except.ok.injEq] at h
            obtain ⟨rowss, h3, rfl⟩ := (ih (user + 1) m rest (fun x hx => hbl x (by simp [hx]))).mp h2
            exact ⟨rs :: rowss, .cons (userLine_iff hU previous user _ hw m rs h1) h3, by simp [← h]⟩
      · rintro ⟨rowss, h1, rfl⟩
        cases h1 with
        | cons h1 h2 =>
          rename_i rs rowss
          obtain ⟨m, h3⟩ := userLine_of hU previous user _ rs h1
          rw [h3]
          simp only
          rw [(ih (user + 1) m rowss.flatten (fun x hx => hbl x (by simp [hx]))).mpr ⟨rowss, h2, rfl⟩]
          rfl
  exact gen bodies 0 none rows hblank

example : readUsers ascii "2 7 7\n1 3\n".toList = .ok [(0, 7), (0, 7), (1, 3)] ∧
    readUsers ascii "2 7\n".toList = .error .assertionError := by
  constructor <;> decide +kernel

example : (∀ b ∈ ["2 7 7".toList, "1 3".toList], '\n' ∉ b) ∧
    ∀ b ∈ ["2 7 7".toList, "1 3".toList], ¬ Words ascii.space (b ++ ['\n']) [] := by
  constructor
  · decide
  · intro b hb
    rw [words_iff]
    revert b
    decide +kernel

/-- A blank line is checked against the count of the line before it: it is accepted as a user without items after a
line that counts none, and an error after any other; at the beginning of the file it is an `UnboundLocalError`. -/
theorem C68_blank_line_counterexample :
    readUsers ascii "0\n\n1 3\n".toList = .ok [(2, 3)] ∧ readUsers ascii "1 3\n\n".toList = .error .assertionError ∧
    readUsers ascii "\n1 3\n".toList = .error .nameError := by
  refine ⟨?_, ?_, ?_⟩ <;> decide +kernel

/-! ## MovieLens -/

/-- a line of `ratings.dat`: user, movie, rating and time, separated by double colons -/
def ratingLine (e : List Char × List Char × List Char × List Char) : List Char :=
  e.1 ++ [':', ':'] ++ e.2.1 ++ [':', ':'] ++ e.2.2.1 ++ [':', ':'] ++ e.2.2.2 ++ ['\n']

/-- Reading with single colons as separators gives back exactly the four fields of each line. -/
theorem C69_ratings (isNA : List Char → Bool) (entries : List (List Char × List Char × List Char × List Char))
    (hne : entries ≠ [])
    (hplain : ∀ e ∈ entries, ∀ f ∈ [e.1, e.2.1, e.2.2.1, e.2.2.2],
      (∀ c ∈ f, c ≠ ':' ∧ c ≠ '\n' ∧ c ≠ '\r' ∧ c ≠ '"' ∧ c ≠ ' ' ∧ c ≠ '\t') ∧ isNA f = false) :
    readRatings isNA (entries.flatMap ratingLine) =
      .ok (entries.map (fun e => [some e.1, some e.2.1, some e.2.2.1, some e.2.2.2])) := by
  let fields : List Char × List Char × List Char × List Char → List (List Char) :=
    fun e => [e.1, [], e.2.1, [], e.2.2.1, [], e.2.2.2]
  have htext : entries.flatMap ratingLine = text ':' (entries.map fields) := by
    unfold text
    rw [List.map_map, List.flatMap_def]
    congr 1
    apply List.map_congr_left
    intro e _
    simp [ratingLine, fields, join]
  have hlines : ∀ l ∈ entries.map fields, PlainLine ':' l ∧ join ':' l ≠ [] := by
    intro l hl
    obtain ⟨e, he, rfl⟩ := List.mem_map.mp hl
    have hp := hplain e he
    have hf : ∀ f ∈ [e.1, e.2.1, e.2.2.1, e.2.2.2], PlainField ':' f := by
      intro f hf
      have := (hp f hf).1
      refine ⟨fun h => (this _ h).1 rfl, fun h => (this _ h).2.1 rfl, fun h => (this _ h).2.2.1 rfl, ?_⟩
      intro h
      exact (this _ (List.mem_of_mem_head? h)).2.2.2.1 rfl
    have h0 : PlainField ':' [] := by simp [PlainField]
    refine ⟨⟨?_, by simp [fields], ?_⟩, by simp [fields, join]⟩
    · intro f hm
      simp only [fields, List.mem_cons, List.not_mem_nil, or_false] at hm
      rcases hm with rfl | rfl | rfl | rfl | rfl | rfl | rfl
      · exact hf _ (by simp)
      · exact h0
      · exact hf _ (by simp)
      · exact h0
      · exact hf _ (by simp)
      · exact h0
      · exact hf _ (by simp)
    · intro c hc
      simp only [fields, join] at hc
      cases h1 : e.1 with
      | nil =>
        rw [h1] at hc
        simp only [List.nil_append, List.head?_cons, Option.some.injEq] at hc
        subst hc
        exact ⟨by decide, by decide⟩
      | cons x t =>
        rw [h1] at hc
        simp only [List.cons_append, List.head?_cons, Option.some.injEq] at hc
        subst hc
        have := (hp e.1 (by simp)).1 x (by rw [h1]; simp)
        exact ⟨this.2.2.2.2.1, fun h => absurd h this.2.2.2.2.2⟩
  have htok := tokenize_text ':' ⟨by decide, by decide, by decide⟩ _ hlines
  unfold readRatings readCsv
  rw [htext, htok]
  cases entries with
  | nil => exact absurd rfl hne
  | cons e0 entries =>
    have hw : ∀ l ∈ entries.map fields, l.length ≤ 7 := by
      intro l hl
      obtain ⟨e, _, rfl⟩ := List.mem_map.mp hl
      simp [fields]
    have hmax : max 0 (fields e0).length = 7 := by simp [fields]
    simp only [bind, Except.bind, List.map_cons, hmax, checkWidth_ok 7 _ hw]
    have hcell : ∀ e ∈ e0 :: entries, [Mind.column (cells isNA 7 (fields e)) 0, Mind.column (cells isNA 7 (fields e)) 2,
        Mind.column (cells isNA 7 (fields e)) 4, Mind.column (cells isNA 7 (fields e)) 6] =
        [some e.1, some e.2.1, some e.2.2.1, some e.2.2.2] := by
      intro e he
      have hp := hplain e he
      have a1 := (hp e.1 (by simp)).2
      have a2 := (hp e.2.1 (by simp)).2
      have a3 := (hp e.2.2.1 (by simp)).2
      have a4 := (hp e.2.2.2 (by simp)).2
      simp [Mind.column, cells, fields, cell, a1, a2, a3, a4]
    have hlen : ((cells isNA 7 (fields e0) :: (entries.map fields).map (cells isNA 7)).headD []).length = 7 := by
      simp [cells, fields]
    rw [hlen]
    simp only [if_neg (show ¬ 7 ≤ 6 by omega), List.map_map, List.map_cons]
    rw [hcell e0 (by simp)]
    congr 2
    apply List.map_congr_left
    intro e he
    exact hcell e (by simp [he])

example : readRatings Mind.emptyNA "1::1193::5::978300760\n2::7::3::1\n".toList =
    .ok [[some ['1'], some "1193".toList, some ['5'], some "978300760".toList],
      [some ['2'], some ['7'], some ['3'], some ['1']]] := by rfl

/-- The genre table lists, movie by movie and in the order of the genres, exactly the genres whose flag is not
zero.  (`flags` are those of a row of the file of the right width.) -/
theorem C69_genres (isNA zero : List Char → Bool) (genres : List (List Char)) (txt : List Char)
    (table : List (Option (List Char) × List Char)) (h : genreTable isNA zero genres txt = .ok table) :
    ∃ lead rows, readCsv isNA '|' 0 txt = .ok (lead, rows) ∧
      table = (rows.map (fun r => ((List.finRange genres.length).filter (fun j =>
        decide ((r.getD (5 + j.val) none).map zero ≠ some true) && decide (5 + j.val < r.length))).map
          (fun j => (r.getD 0 none, genres[j])))).flatten := by
  unfold genreTable at h
  simp only [bind, Except.bind] at h
  cases h1 : readCsv isNA '|' 0 txt with
  | error e => rw [h1] at h; cases h
  | ok p =>
    obtain ⟨lead, rows⟩ := p
    rw [h1] at h
    simp only at h
    split at h
    · cases h
    · simp only [Except.ok.injEq] at h
      refine ⟨lead, rows, rfl, ?_⟩
      rw [← h, List.flatMap_def]
      congr 1
      apply List.map_congr_left
      intro r _
      -- one row
      have key : ∀ (genres : List (List Char)) (r : List (Option (List Char))) (m : Option (List Char)),
          ((r.zip genres).filter (fun p => match p.1 with | none => true | some s => !zero s)).map (fun p => (m, p.2)) =
          ((List.finRange genres.length).filter (fun j =>
            decide ((r.getD j.val none).map zero ≠ some true) && decide (j.val < r.length))).map
              (fun j => (m, genres[j])) := by
        intro genres
        induction genres with
        | nil => intro r m; simp
        | cons g genres ih =>
          intro r m
          cases r with
          | nil => simp
          | cons c r =>
            rw [List.zip_cons_cons, List.filter_cons]
            simp only [List.length_cons, List.finRange_succ, List.filter_cons, List.filter_map, List.map_map]
            have hih := ih r m
            have hcond : (match c with | none => true | some s => !zero s) =
                (decide (((c :: r).getD (0 : Fin (genres.length + 1)).val none).map zero ≠ some true) &&
                  decide ((0 : Fin (genres.length + 1)).val < r.length + 1)) := by
              cases c with
              | none => simp
              | some s => cases hz : zero s <;> simp [hz]
            have htail : ((List.finRange genres.length).filter
                ((fun j : Fin (genres.length + 1) => decide (((c :: r).getD j.val none).map zero ≠ some true) &&
                  decide (j.val < r.length + 1)) ∘ Fin.succ)) =
                (List.finRange genres.length).filter (fun j =>
                  decide ((r.getD j.val none).map zero ≠ some true) && decide (j.val < r.length)) := by
              congr 1
              funext j
              simp
            rw [htail, ← hcond]
            by_cases hc : (match c with | none => true | some s => !zero s) = true
            · rw [if_pos hc, if_pos hc, List.map_cons, List.map_cons, hih]
              simp [Function.comp_def]
            · rw [if_neg hc, if_neg hc, hih]
              simp [Function.comp_def]
      refine (key genres (r.drop 5) (Mind.column r 0)).trans ?_
      have hf : ∀ j : Fin genres.length,
          (decide (((r.drop 5).getD j.val none).map zero ≠ some true) && decide (j.val < (r.drop 5).length)) =
          (decide ((r.getD (5 + j.val) none).map zero ≠ some true) && decide (5 + j.val < r.length)) := by
        intro j
        congr 1
        · simp [List.getD_eq_getElem?_getD]
        · simp only [List.length_drop, decide_eq_decide]; omega
      simp only [hf]
      rfl

example : genreTable Mind.emptyNA (fun s => s = ['0']) [['A'], ['B']] "1|t|d||u|1|0\n2|t|d||u|1|1\n".toList =
    .ok [(some ['1'], ['A']), (some ['2'], ['A']), (some ['2'], ['B'])] := by rfl

end Irspack.Datasets
