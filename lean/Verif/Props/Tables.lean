import Verif.Proofs.Text
import Verif.Props.Mind

/-!
# C66: tables are read line by line
-/

namespace Irspack.Tables

open Text Spec

/-- a separator: not a quote and not the end of a line -/
def Separator (d : Char) : Prop := d ≠ '"' ∧ d ≠ '\n' ∧ d ≠ '\r'

/-- A text table whose fields contain neither separators nor ends of lines, and do not begin with a quote, is read
as one row per line that is not blank, in order, with exactly its fields; empty and other missing-value strings
are missing values, and short lines are filled up with them.  The last line may lack its end.  (`n` is the number of names; here no line has more
fields.) -/
theorem C66_rows (isNA : List Char → Bool) (d : Char) (hd : Separator d) (n : Nat) (hn : 0 < n) (pieces : List Piece)
    (last : Option Piece) (h : ∀ p ∈ pieces ++ last.toList, p.Plain d)
    (hw : ∀ l ∈ (pieces ++ last.toList).flatMap Piece.rows, l.length ≤ n) :
    ∃ rows, readCsv isNA d n (table d pieces last) = .ok (0, rows) ∧
      List.Forall₂ (fun l r => r.length = n ∧
        (∀ (i : Nat) (hi : i < l.length), r[i]? = some (if isNA l[i] then none else some l[i])) ∧
        ∀ i, l.length ≤ i → i < n → r[i]? = some none) ((pieces ++ last.toList).flatMap Piece.rows) rows := by
  refine ⟨((pieces ++ last.toList).flatMap Piece.rows).map (cells isNA n), ?_, ?_⟩
  · unfold readCsv
    rw [tokenize_pieces d ⟨hd.2.1, hd.2.2, hd.1⟩ pieces last h]
    simp only [bind, Except.bind]
    cases hr : (pieces ++ last.toList).flatMap Piece.rows with
    | nil => simp [show n ≠ 0 by omega]
    | cons first rest =>
      rw [hr] at hw
      have h1 : max n first.length = n := by have := hw first (by simp); omega
      simp only [h1, checkWidth_ok n rest (fun l hl => hw l (by simp [hl]))]
      have h2 : first.length - n = 0 := by have := hw first (by simp); omega
      simp [h2]
  · rw [List.forall₂_map_right_iff, List.forall₂_same]
    intro l hl
    have := hw l hl
    refine ⟨by simp [cells]; omega, ?_, ?_⟩
    · intro i hi
      simp [cells, cell, List.getElem?_append, hi]
    · intro i h1 h2
      simp only [cells]
      rw [List.getElem?_append_right (by simpa using h1), List.getElem?_replicate]
      simp
      omega

/-- A line with more fields than the first, and than there are names, is an error, not a shifted row. -/
theorem C66_too_long (isNA : List Char → Bool) (d : Char) (hd : Separator d) (n : Nat) (pieces : List Piece)
    (last : Option Piece) (h : ∀ p ∈ pieces ++ last.toList, p.Plain d) (first : List (List Char)) (rest : List (List (List Char)))
    (hr : (pieces ++ last.toList).flatMap Piece.rows = first :: rest) (hl : ∃ l ∈ rest, n < l.length ∧ first.length < l.length) :
    readCsv isNA d n (table d pieces last) = .error .valueError := by
  unfold readCsv
  rw [tokenize_pieces d ⟨hd.2.1, hd.2.2, hd.1⟩ pieces last h, hr]
  simp only [bind, Except.bind]
  obtain ⟨l, h1, h2, h3⟩ := hl
  rw [checkWidth_error _ rest ⟨l, h1, by omega⟩]

/-- But when the first line has more fields than there are names, its first fields become the index: all columns
are shifted. -/
theorem C66_long_first_line_counterexample : ∃ (text : List Char) (lines : List (List (List Char))),
    tokenize '\t' text = .ok lines ∧ lines = [["a".toList, "b".toList, "c".toList]] ∧
    readCsv Mind.emptyNA '\t' 2 text = .ok (1, [[some ['a'], some ['b'], some ['c']]]) :=
  ⟨"a\tb\tc\n".toList, _, rfl, rfl, rfl⟩

/-- the hypotheses are met: lines with quotes inside fields, an empty field, a short line, a blank line and all
ends of lines -/
example : (∀ p ∈ [Piece.line ["1".toList, "say \"hi\"".toList, []] .crlf, .blank [' '] .lf,
      .line ["3".toList, "c".toList] .cr, .line ["2".toList, "b".toList] .lf], p.Plain '\t') ∧
    table '\t' [Piece.line ["1".toList, "say \"hi\"".toList, []] .crlf, .blank [' '] .lf,
        .line ["3".toList, "c".toList] .cr]
      (some (.line ["2".toList, "b".toList] .lf)) = "1\tsay \"hi\"\t\r\n \n3\tc\r2\tb".toList ∧
    readCsv Mind.emptyNA '\t' 3 "1\tsay \"hi\"\t\r\n \n3\tc\r2\tb".toList =
      .ok (0, [[some ['1'], some "say \"hi\"".toList, none], [some ['3'], some ['c'], none],
        [some ['2'], some ['b'], none]]) := by
  constructor
  · simp [Piece.Plain, PlainLine, PlainField, join]
  · exact ⟨rfl, rfl⟩

/-- The condition on quotes is needed: the tables of articles of MIND are read with quoting on.  A title that begins
with a quote which is closed in a later line swallows the lines between: here a file with three articles is read
as two, the second is lost and the first has a wrong title and wrong other columns; there is no error. -/
theorem C66_quote_counterexample : ∃ (z : Mind.Archives) (lines : List (List (List Char)))
    (rows : List (List (Option (List Char)))),
    Mind.readText z "train" "news.tsv".toList = .ok (text '\t' lines) ∧
    lines.length = 3 ∧ (∀ l ∈ lines, l.length = 8 ∧ ∀ f ∈ l, '\t' ∉ f ∧ '\n' ∉ f ∧ '\r' ∉ f) ∧
    (lines.map (fun l => l.headD [])).Nodup ∧
    Mind.readItemRows Mind.emptyNA z (some "train") = .ok rows ∧ rows.length = 2 ∧
    rows.map (fun r => Mind.column r 0) = [some ['1'], some ['3']] := by
  refine ⟨⟨[("news.tsv".toList,
    "1\tc\ts\t\"A\ta\tu\tt\te\n2\tc\ts\tB\" b\ta\tu\tt\te\n3\tc\ts\tC\ta\tu\tt\te\n".toList)], []⟩,
    [["1".toList, "c".toList, "s".toList, "\"A".toList, "a".toList, "u".toList, "t".toList, "e".toList],
     ["2".toList, "c".toList, "s".toList, "B\" b".toList, "a".toList, "u".toList, "t".toList, "e".toList],
     ["3".toList, "c".toList, "s".toList, "C".toList, "a".toList, "u".toList, "t".toList, "e".toList]],
    _, rfl, rfl, ?_, ?_, rfl, rfl, rfl⟩
  · decide
  · decide

/-- A quote that is never closed makes the whole file unreadable. -/
theorem C66_open_quote_counterexample : ∃ lines : List (List (List Char)),
    (∀ l ∈ lines, l.length = 2 ∧ ∀ f ∈ l, '\t' ∉ f ∧ '\n' ∉ f ∧ '\r' ∉ f) ∧
    readCsv Mind.emptyNA '\t' 2 (text '\t' lines) = .error .valueError :=
  ⟨[["1".toList, "\"A".toList], ["2".toList, "b".toList]], by decide, rfl⟩

end Irspack.Tables
