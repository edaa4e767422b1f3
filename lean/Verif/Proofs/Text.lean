import Verif.Model.Text
import Verif.Spec.Text
import Mathlib.Tactic.Common
import Mathlib.Data.List.Induction

namespace Irspack.Text

open Spec

/-! ## Words -/

theorem wordsFrom_spec (space : Char → Bool) (s : List Char) : ∀ acc, (∀ c ∈ acc, space c = false) →
    Words space (acc ++ s) (wordsFrom space acc s) := by
  induction s with
  | nil =>
    intro acc h
    unfold wordsFrom
    by_cases ha : acc = []
    · subst ha; simpa using Words.nil
    · rw [if_neg ha]
      exact .word acc [] [] ha h (by simp) .nil
  | cons c s ih =>
    intro acc h
    unfold wordsFrom
    by_cases hc : space c = true
    · rw [if_pos hc]
      have h0 := ih [] (by simp)
      by_cases ha : acc = []
      · subst ha
        simpa using Words.space c s _ hc h0
      · rw [if_neg ha]
        exact .word acc (c :: s) _ ha h (by simp [hc]) (.space c s _ hc h0)
    · rw [if_neg hc]
      have := ih (acc ++ [c]) (by
        intro x hx
        rcases List.mem_append.mp hx with hx | hx
        · exact h x hx
        · rw [List.mem_singleton.mp hx]; simpa using hc)
      simpa using this

theorem wordsFrom_append (space : Char → Bool) (w s : List Char) (hw : ∀ c ∈ w, space c = false) : ∀ acc,
    wordsFrom space acc (w ++ s) = wordsFrom space (acc ++ w) s := by
  induction w with
  | nil => simp
  | cons c w ih =>
    intro acc
    rw [List.cons_append, wordsFrom, if_neg (by simp [hw c (by simp)]), ih (fun x hx => hw x (by simp [hx]))]
    simp

theorem wordsFrom_end (space : Char → Bool) (w s : List Char) (hw : w ≠ [])
    (hs : ∀ c, s.head? = some c → space c = true) : wordsFrom space w s = w :: wordsFrom space [] s := by
  cases s with
  | nil => simp [wordsFrom, hw]
  | cons c s =>
    have hc := hs c rfl
    rw [wordsFrom, if_pos hc, if_neg hw]
    simp [wordsFrom, hc]

theorem words_iff (space : Char → Bool) (s : List Char) (ts : List (List Char)) :
    Words space s ts ↔ words space s = ts := by
  constructor
  · intro h
    induction h with
    | nil => simp [words, wordsFrom]
    | space c s ts hc _ ih => simpa [words, wordsFrom, hc] using ih
    | word w s ts hw hns hs _ ih =>
      unfold words at ih ⊢
      rw [wordsFrom_append space w s hns, List.nil_append, wordsFrom_end space w s hw hs, ih]
  · rintro rfl
    simpa [words] using wordsFrom_spec space s [] (by simp)

/-! ## The last dash -/

theorem lastDash_none (s : List Char) : lastDash s = none ↔ '-' ∉ s := by
  induction s with
  | nil => simp [lastDash]
  | cons c s ih =>
    rw [lastDash]
    cases h : lastDash s with
    | some p => 
      have : '-' ∈ s := by
        by_contra hn
        rw [ih.mpr hn] at h; cases h
      simp [this]
    | none =>
      have := ih.mp h
      by_cases hc : c = '-' 
      · simp [hc]
      · simp [hc, this, Ne.symm hc]

theorem lastDash_iff (s a b : List Char) : lastDash s = some (a, b) ↔ AtLastDash s a b := by
  unfold AtLastDash
  induction s generalizing a with
  | nil => simp [lastDash]
  | cons c s ih =>
    rw [lastDash]
    cases h : lastDash s with
    | some p =>
      obtain ⟨x, y⟩ := p
      have hxy := (ih x).1
      constructor
      · intro he
        simp only [Option.some.injEq, Prod.mk.injEq] at he
        obtain ⟨rfl, rfl⟩ := he
        obtain ⟨h1, h2⟩ := (ih x).mp h
        exact ⟨by rw [h1]; simp, h2⟩
      · rintro ⟨h1, h2⟩
        cases a with
        | nil =>
          simp at h1
          have : '-' ∈ s := by
            by_contra hn
            rw [(lastDash_none s).mpr hn] at h; cases h
          rw [h1.2] at this
          exact absurd this h2
        | cons a0 a =>
          simp at h1
          obtain ⟨rfl, h1⟩ := h1
          have := (ih a).mpr ⟨h1, h2⟩
          rw [h] at this
          cases this
          rfl
    | none =>
      have hn := (lastDash_none s).mp h
      by_cases hc : c = '-'
      · subst hc
        rw [if_pos rfl]
        constructor
        · intro he
          simp only [Option.some.injEq, Prod.mk.injEq] at he
          obtain ⟨rfl, rfl⟩ := he
          exact ⟨rfl, hn⟩
        · rintro ⟨h1, h2⟩
          cases a with
          | nil => simp at h1; simp [h1]
          | cons a0 a =>
            simp at h1
            exact absurd (by rw [h1.2]; simp) hn
      · rw [if_neg hc]
        constructor
        · intro he; cases he
        · rintro ⟨h1, h2⟩
          cases a with
          | nil => simp at h1; exact absurd h1.1 hc
          | cons a0 a =>
            simp at h1
            exact absurd (by rw [h1.2]; simp) hn

/-! ## Split at a character -/

theorem splitOn_ne_nil (d : Char) (s : List Char) : splitOn d s ≠ [] := by
  induction s with
  | nil => simp [splitOn]
  | cons c s ih =>
    rw [splitOn]
    split
    · simp
    · cases h : splitOn d s <;> simp

theorem splitOn_plain (d : Char) (f : List Char) (hf : d ∉ f) (s : List Char) :
    ∀ t ts, splitOn d s = t :: ts → splitOn d (f ++ s) = (f ++ t) :: ts := by
  induction f with
  | nil => intro t ts h; simpa using h
  | cons c f ih =>
    intro t ts h
    have h1 := ih (fun hm => hf (by simp [hm])) t ts h
    have hc : c ≠ d := fun h => hf (by simp [h])
    rw [List.cons_append, splitOn, if_neg hc, h1]
    rfl

theorem splitOn_join (d : Char) (l : List (List Char)) (hl : l ≠ []) (h : ∀ f ∈ l, d ∉ f) :
    splitOn d (join d l) = l := by
  induction l with
  | nil => exact absurd rfl hl
  | cons f l ih =>
    cases l with
    | nil =>
      have := splitOn_plain d f (h f (by simp)) [] [] [] rfl
      simpa [join] using this
    | cons g l =>
      have h1 := ih (by simp) (fun x hx => h x (by simp [hx]))
      have := splitOn_plain d f (h f (by simp)) (d :: join d (g :: l)) [] (g :: l) (by
        rw [splitOn, if_pos rfl, h1])
      simpa [join] using this

/-! ## The tokenizer on plain lines -/

/-- characters that have no meaning in an unquoted field -/
def Ordinary (d c : Char) : Prop := c ≠ '\n' ∧ c ≠ '\r' ∧ c ≠ d

theorem inField_run (d : Char) (f : List Char) (hf : ∀ c ∈ f, Ordinary d c) : ∀ (x : List Char) (fs ls),
    f.foldl (Tok.step d) ⟨.inField, x, fs, ls⟩ = ⟨.inField, x ++ f, fs, ls⟩ := by
  induction f with
  | nil => simp
  | cons c f ih =>
    intro x fs ls
    obtain ⟨h1, h2, h3⟩ := hf c (by simp)
    rw [List.foldl_cons]
    have : Tok.step d ⟨.inField, x, fs, ls⟩ c = ⟨.inField, x ++ [c], fs, ls⟩ := by
      simp [Tok.step, Tok.fieldGo, h1, h2, h3]
    rw [this, ih (fun c hc => hf c (by simp [hc]))]
    simp

theorem ordinary_of_plain {d : Char} {f : List Char} (h : PlainField d f) : ∀ c ∈ f, Ordinary d c := by
  intro c hc
  exact ⟨fun e => h.2.1 (e ▸ hc), fun e => h.2.2.1 (e ▸ hc), fun e => h.1 (e ▸ hc)⟩

/-- after a field: either nothing was read or the state is `inField` -/
theorem startField_run (d : Char) (f : List Char) (hf : PlainField d f) (fs ls) :
    f.foldl (Tok.step d) ⟨.startField, [], fs, ls⟩ =
      ⟨if f = [] then .startField else .inField, f, fs, ls⟩ := by
  cases f with
  | nil => simp
  | cons c f =>
    obtain ⟨h1, h2, h3⟩ := ordinary_of_plain hf c (by simp)
    have hq : c ≠ '"' := fun e => hf.2.2.2 (by simp [e])
    rw [List.foldl_cons]
    have : Tok.step d ⟨.startField, [], fs, ls⟩ c = ⟨.inField, [c], fs, ls⟩ := by
      simp [Tok.step, Tok.fieldStart, h1, h2, h3, hq]
    rw [this, inField_run d f (fun c hc => ordinary_of_plain hf c (by simp [hc]))]
    simp

theorem sep_step (d : Char) (hd : Ordinary '"' d) (st : State) (hst : st = .startField ∨ st = .inField) (f fs ls) :
    Tok.step d ⟨st, f, fs, ls⟩ d = ⟨.startField, [], fs ++ [f], ls⟩ := by
  obtain ⟨h1, h2, h3⟩ := hd
  rcases hst with rfl | rfl <;> simp [Tok.step, Tok.fieldStart, Tok.fieldGo, h1, h2, h3, Tok.endField]

theorem end_step (d : Char) (st : State) (hst : st = .startField ∨ st = .inField) (f fs ls) :
    Tok.step d ⟨st, f, fs, ls⟩ '\n' = ⟨.startRecord, [], [], ls ++ [fs ++ [f]]⟩ := by
  rcases hst with rfl | rfl <;> simp [Tok.step, Tok.fieldStart, Tok.fieldGo, Tok.endField, Tok.endLine]

/-- a line read from the state `startField`, without the line feed -/
theorem line_run (d : Char) (hd : Ordinary '"' d) (l : List (List Char)) : ∀ (f : List Char) (fs ls),
    (∀ g ∈ f :: l, PlainField d g) →
    ∃ st last init, (st = .startField ∨ st = .inField) ∧ init ++ [last] = fs ++ f :: l ∧
      (join d (f :: l)).foldl (Tok.step d) ⟨.startField, [], fs, ls⟩ = ⟨st, last, init, ls⟩ := by
  induction l with
  | nil =>
    intro f fs ls h
    refine ⟨_, f, fs, ?_, rfl, startField_run d f (h f (by simp)) fs ls⟩
    split <;> simp
  | cons g l ih =>
    intro f fs ls h
    obtain ⟨st, last, init, h1, h2, h3⟩ := ih g (fs ++ [f]) ls (fun x hx => h x (by simp [hx]))
    refine ⟨st, last, init, h1, by rw [h2]; simp, ?_⟩
    rw [join, List.foldl_append, startField_run d f (h f (by simp)), List.foldl_cons, sep_step d hd _ (by split <;> simp),
      h3]

/-- the first character of a plain line is treated as at the start of a field -/
theorem startRecord_eq (d : Char) (s : List Char) (hs : s ≠ [])
    (hc : ∀ c, s.head? = some c → c ≠ '\n' ∧ c ≠ '\r' ∧ c ≠ ' ' ∧ (c = '\t' → d = '\t')) (fs ls) :
    s.foldl (Tok.step d) ⟨.startRecord, [], fs, ls⟩ = s.foldl (Tok.step d) ⟨.startField, [], fs, ls⟩ := by
  cases s with
  | nil => exact absurd rfl hs
  | cons c s =>
    obtain ⟨h1, h2, h3, h4⟩ := hc c rfl
    rw [List.foldl_cons, List.foldl_cons]
    congr 1
    have h5 : ¬ ((c = ' ' ∨ c = '\t') ∧ c ≠ d) := by
      rintro ⟨h | h, h'⟩
      · exact h3 h
      · exact h' (by rw [h4 h, h])
    simp only [Tok.step, Tok.recordStart, h1, h2, h5, if_false]
    simp only [Tok.fieldStart, h1, h2, if_false]
    split <;> rfl

theorem plain_head {d : Char} (hd : Ordinary '"' d) {l : List (List Char)} (h : PlainLine d l) :
    ∀ c, (join d l).head? = some c → c ≠ '\n' ∧ c ≠ '\r' ∧ c ≠ ' ' ∧ (c = '\t' → d = '\t') := by
  intro c hc
  have hm : c ∈ join d l := List.mem_of_mem_head? hc
  have hall : ∀ (l : List (List Char)), (∀ f ∈ l, PlainField d f) → ∀ c ∈ join d l, c ≠ '\n' ∧ c ≠ '\r' := by
    intro l
    induction l with
    | nil => intro _ c hc; simp [join] at hc
    | cons f l ih =>
      intro hl c hc
      have hf := ordinary_of_plain (hl f (by simp))
      cases l with
      | nil => exact ⟨(hf c hc).1, (hf c hc).2.1⟩
      | cons g l =>
        rw [join] at hc
        rcases List.mem_append.mp hc with hc | hc
        · exact ⟨(hf c hc).1, (hf c hc).2.1⟩
        · rcases List.mem_cons.mp hc with rfl | hc
          · exact ⟨hd.1, hd.2.1⟩
          · exact ih (fun x hx => hl x (by simp [hx])) c hc
  obtain ⟨h1, h2⟩ := hall l h.1 c hm
  exact ⟨h1, h2, h.2.2 c hc⟩

/-- a plain line that is not empty, with its line feed -/
theorem record_run (d : Char) (hd : Ordinary '"' d) (l : List (List Char)) (h : PlainLine d l)
    (hne : join d l ≠ []) (ls) :
    (join d l ++ ['\n']).foldl (Tok.step d) ⟨.startRecord, [], [], ls⟩ = ⟨.startRecord, [], [], ls ++ [l]⟩ := by
  rw [List.foldl_append, startRecord_eq d _ hne (plain_head hd h)]
  cases l with
  | nil => exact absurd rfl h.2.1
  | cons f l =>
    obtain ⟨st, last, init, h1, h2, h3⟩ := line_run d hd l f [] ls h.1
    rw [h3, List.foldl_cons, List.foldl_nil, end_step d st h1, h2]
    simp

theorem record_run_crlf (d : Char) (hd : Ordinary '"' d) (l : List (List Char)) (h : PlainLine d l)
    (hne : join d l ≠ []) (ls) :
    (join d l ++ ['\r', '\n']).foldl (Tok.step d) ⟨.startRecord, [], [], ls⟩ = ⟨.startRecord, [], [], ls ++ [l]⟩ := by
  rw [List.foldl_append, startRecord_eq d _ hne (plain_head hd h)]
  cases l with
  | nil => exact absurd rfl h.2.1
  | cons f l =>
    obtain ⟨st, last, init, h1, h2, h3⟩ := line_run d hd l f [] ls h.1
    have : Tok.step d ⟨st, last, init, ls⟩ '\r' = ⟨.eatCrnl, [], init ++ [last], ls⟩ := by
      rcases h1 with rfl | rfl <;> simp [Tok.step, Tok.fieldStart, Tok.fieldGo, Tok.endField]
    rw [h3, List.foldl_cons, this, List.foldl_cons, List.foldl_nil, h2]
    simp [Tok.step, Tok.endLine]

theorem blank_run (d : Char) (spaces : List Char) (h : ∀ c ∈ spaces, (c = ' ' ∨ c = '\t') ∧ c ≠ d) (ls) : ∀ seen,
    spaces.foldl (Tok.step d) ⟨.blankLine seen, [], [], ls⟩ = ⟨.blankLine (seen ++ spaces), [], [], ls⟩ := by
  induction spaces with
  | nil => simp
  | cons c spaces ih =>
    intro seen
    have hc := h c (by simp)
    have h1 : c ≠ '\n' := by rcases hc.1 with h | h <;> rw [h] <;> decide
    have h2 : c ≠ '\r' := by rcases hc.1 with h | h <;> rw [h] <;> decide
    rw [List.foldl_cons]
    have : Tok.step d ⟨.blankLine seen, [], [], ls⟩ c = ⟨.blankLine (seen ++ [c]), [], [], ls⟩ := by
      simp only [Tok.step, h1, h2, if_false]
      rw [if_pos hc]
    rw [this, ih (fun x hx => h x (by simp [hx]))]
    simp

/-- the lines read so far are `ls`, and nothing of another line has been read, except perhaps a line feed that
belongs to the carriage return before it is missing -/
inductive Settled : Tok → List (List (List Char)) → Prop
  | start (ls) : Settled ⟨.startRecord, [], [], ls⟩ ls
  | cr (f ls) : Settled ⟨.eatCrnl, [], f, ls⟩ (ls ++ [f])
  | crBlank (ls) : Settled ⟨.eatCrnlNop, [], [], ls⟩ ls

theorem Settled.run {d : Char} {t : Tok} {ls} (h : Settled t ls) (s : List Char) (hs : s ≠ []) :
    s.foldl (Tok.step d) t = s.foldl (Tok.step d) ⟨.startRecord, [], [], ls⟩ := by
  cases s with
  | nil => exact absurd rfl hs
  | cons c s =>
    rw [List.foldl_cons, List.foldl_cons]
    congr 1
    cases h with
    | start => rfl
    | cr f ls =>
      by_cases hc : c = '\n'
      · simp [Tok.step, Tok.recordStart, hc, Tok.endLine]
      · simp [Tok.step, hc, Tok.endLine]
    | crBlank =>
      by_cases hc : c = '\n'
      · simp [Tok.step, Tok.recordStart, hc]
      · simp [Tok.step, hc]

theorem Settled.finish {t : Tok} {ls} (h : Settled t ls) : t.finish = .ok ls := by
  cases h <;> rfl

theorem lineEnd_ne (e : LineEnd) : lineEnd e ≠ [] := by cases e <;> simp [lineEnd]

theorem blank_line_run (d : Char) (spaces : List Char) (h : ∀ c ∈ spaces, (c = ' ' ∨ c = '\t') ∧ c ≠ d) (e : LineEnd) (ls) :
    Settled ((spaces ++ lineEnd e).foldl (Tok.step d) ⟨.startRecord, [], [], ls⟩) ls := by
  cases spaces with
  | nil =>
    cases e <;> simp [lineEnd, Tok.step, Tok.recordStart, Settled.start, Settled.crBlank]
  | cons c spaces =>
    have hc := h c (by simp)
    have h1 : c ≠ '\n' := by rcases hc.1 with h | h <;> rw [h] <;> decide
    have h2 : c ≠ '\r' := by rcases hc.1 with h | h <;> rw [h] <;> decide
    have : Tok.step d ⟨.startRecord, [], [], ls⟩ c = ⟨.blankLine [c], [], [], ls⟩ := by
      simp only [Tok.step, Tok.recordStart, h1, h2, if_false]
      rw [if_pos hc]
    rw [List.cons_append, List.foldl_cons, this, List.foldl_append, blank_run d spaces (fun x hx => h x (by simp [hx]))]
    cases e <;> simp [lineEnd, Tok.step, Settled.start, Settled.crBlank]

theorem line_end_run (d : Char) (hd : Ordinary '"' d) (l : List (List Char)) (h : PlainLine d l)
    (hne : join d l ≠ []) (e : LineEnd) (ls) :
    Settled ((join d l ++ lineEnd e).foldl (Tok.step d) ⟨.startRecord, [], [], ls⟩) (ls ++ [l]) := by
  cases e with
  | lf => rw [lineEnd, record_run d hd l h hne]; exact .start _
  | crlf => rw [lineEnd, record_run_crlf d hd l h hne]; exact .start _
  | cr =>
    rw [lineEnd, List.foldl_append, startRecord_eq d _ hne (plain_head hd h)]
    cases l with
    | nil => exact absurd rfl h.2.1
    | cons f l =>
      obtain ⟨st, last, init, h1, h2, h3⟩ := line_run d hd l f [] ls h.1
      have : Tok.step d ⟨st, last, init, ls⟩ '\r' = ⟨.eatCrnl, [], init ++ [last], ls⟩ := by
        rcases h1 with rfl | rfl <;> simp [Tok.step, Tok.fieldStart, Tok.fieldGo, Tok.endField]
      rw [h3, List.foldl_cons, this, List.foldl_nil, h2]
      exact .cr _ _

theorem pieces_run (d : Char) (hd : Ordinary '"' d) (pieces : List Piece) (h : ∀ p ∈ pieces, p.Plain d) : ∀ t ls,
    Settled t ls →
    Settled ((pieces.flatMap (Piece.text d)).foldl (Tok.step d) t) (ls ++ pieces.flatMap Piece.rows) := by
  induction pieces with
  | nil => simp
  | cons p pieces ih =>
    intro t ls ht
    have hp := h p (by simp)
    have ih' := ih (fun x hx => h x (by simp [hx]))
    rw [List.flatMap_cons, List.foldl_append, List.flatMap_cons]
    cases p with
    | line fields e =>
      obtain ⟨h1, h2⟩ := hp
      rw [ht.run _ (by simp [Piece.text, lineEnd_ne])]
      have := ih' _ _ (line_end_run d hd fields h1 h2 e ls)
      simpa [Piece.rows, Piece.text] using this
    | blank spaces e =>
      rw [ht.run _ (by simp [Piece.text, lineEnd_ne])]
      have := ih' _ _ (blank_line_run d spaces hp e ls)
      simpa [Piece.rows, Piece.text] using this

theorem tokenize_pieces (d : Char) (hd : Ordinary '"' d) (pieces : List Piece) (last : Option Piece)
    (h : ∀ p ∈ pieces ++ last.toList, p.Plain d) :
    tokenize d (table d pieces last) = .ok ((pieces ++ last.toList).flatMap Piece.rows) := by
  have hp := pieces_run d hd pieces (fun p hp => h p (by simp [hp])) _ _ (Settled.start [])
  rw [tokenize, table, List.foldl_append]
  cases last with
  | none => simpa using hp.finish
  | some p =>
    have hl := h p (by simp)
    cases p with
    | line l e =>
      obtain ⟨hl, hne⟩ := hl
      simp only [Option.map_some, Option.getD_some, Piece.body]
      rw [hp.run _ hne, startRecord_eq d _ hne (plain_head hd hl)]
      cases l with
      | nil => exact absurd rfl hl.2.1
      | cons f l =>
        obtain ⟨st, last, init, h1, h2, h3⟩ := line_run d hd l f [] ([] ++ pieces.flatMap Piece.rows) hl.1
        rw [h3]
        rw [List.nil_append] at h2
        rcases h1 with rfl | rfl <;> simp [Tok.finish, Tok.endField, Tok.endLine, h2, Piece.rows]
    | blank spaces e =>
      simp only [Option.map_some, Option.getD_some, Piece.body]
      cases spaces with
      | nil => simpa [Piece.rows] using hp.finish
      | cons c spaces =>
        have hc := hl c (by simp)
        have h1 : c ≠ '\n' := by rcases hc.1 with h | h <;> rw [h] <;> decide
        have h2 : c ≠ '\r' := by rcases hc.1 with h | h <;> rw [h] <;> decide
        have : ∀ ls, Tok.step d ⟨.startRecord, [], [], ls⟩ c = ⟨.blankLine [c], [], [], ls⟩ := by
          intro ls
          simp only [Tok.step, Tok.recordStart, h1, h2, if_false]
          rw [if_pos hc]
        rw [hp.run _ (by simp), List.foldl_cons, this, blank_run d spaces (fun x hx => hl x (by simp [hx]))]
        simp [Tok.finish, Piece.rows]

theorem text_run (d : Char) (hd : Ordinary '"' d) (lines : List (List (List Char)))
    (h : ∀ l ∈ lines, PlainLine d l ∧ join d l ≠ []) : ∀ ls,
    (text d lines).foldl (Tok.step d) ⟨.startRecord, [], [], ls⟩ = ⟨.startRecord, [], [], ls ++ lines⟩ := by
  induction lines with
  | nil => simp [text]
  | cons l lines ih =>
    intro ls
    have : text d (l :: lines) = (join d l ++ ['\n']) ++ text d lines := by simp [text]
    rw [this, List.foldl_append, record_run d hd l (h l (by simp)).1 (h l (by simp)).2,
      ih (fun l' hl' => h l' (by simp [hl']))]
    simp

theorem tokenize_text (d : Char) (hd : Ordinary '"' d) (lines : List (List (List Char)))
    (h : ∀ l ∈ lines, PlainLine d l ∧ join d l ≠ []) : tokenize d (text d lines) = .ok lines := by
  rw [tokenize, text_run d hd lines h]
  simp [Tok.finish]

/-- the last line may end without line feed -/
theorem tokenize_text_open (d : Char) (hd : Ordinary '"' d) (lines : List (List (List Char))) (l : List (List Char))
    (h : ∀ l ∈ lines, PlainLine d l ∧ join d l ≠ []) (hl : PlainLine d l) (hne : join d l ≠ []) :
    tokenize d (text d lines ++ join d l) = .ok (lines ++ [l]) := by
  rw [tokenize, List.foldl_append, text_run d hd lines h, startRecord_eq d _ hne (plain_head hd hl)]
  cases l with
  | nil => exact absurd rfl hl.2.1
  | cons f l =>
    obtain ⟨st, last, init, h1, h2, h3⟩ := line_run d hd l f [] ([] ++ lines) hl.1
    rw [h3]
    rw [List.nil_append] at h2
    rcases h1 with rfl | rfl <;> simp [Tok.finish, Tok.endField, Tok.endLine, h2]

theorem checkWidth_error (w : Nat) (ls : List (List (List Char))) (h : ∃ l ∈ ls, w < l.length) :
    checkWidth w ls = .error .valueError := by
  induction ls with
  | nil => simp at h
  | cons l ls ih =>
    rw [checkWidth]
    split
    · rfl
    · rename_i hl
      apply ih
      obtain ⟨x, hx, hw⟩ := h
      rcases List.mem_cons.mp hx with rfl | hx
      · exact absurd hw hl
      · exact ⟨x, hx, hw⟩

theorem checkWidth_ok (w : Nat) (ls : List (List (List Char))) (h : ∀ l ∈ ls, l.length ≤ w) :
    checkWidth w ls = .ok () := by
  induction ls with
  | nil => rfl
  | cons l ls ih =>
    rw [checkWidth, if_neg (by have := h l (by simp); omega), ih (fun x hx => h x (by simp [hx]))]

end Irspack.Text
