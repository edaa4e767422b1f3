import Mathlib.Data.Nat.Digits.Defs
import Verif.Model.Threads

/-!
# Integer literals accepted by Python's `int`

Written from the documentation of `int`: "the string must represent an integer literal in radix base.
Optionally, the string can be preceded by `+` or `-` (with no space in between), have leading zeros, be
surrounded by whitespace, and have single underscores interspersed between digits".
-/

namespace Irspack.Spec.Numeral

/-- `body` is a non-empty sequence of non-empty groups of digits separated by single underscores, and its
digits are those of `n` in base ten (with possible leading zeros). -/
def Decimal (U : Chars) (body : List Char) (n : Nat) : Prop :=
  ∃ groups : List (List Char), groups ≠ [] ∧ (∀ g ∈ groups, g ≠ []) ∧ body = ['_'].intercalate groups ∧
    ∃ digits : List Nat, groups.flatten.map U.digit = digits.map some ∧ n = Nat.ofDigits 10 digits.reverse

/-- `s` is an integer literal with value `n`. -/
def IntegerLiteral (U : Chars) (s : List Char) (n : Int) : Prop :=
  ∃ (pre body post : List Char) (k : Nat), (∀ c ∈ pre, U.space c) ∧ (∀ c ∈ post, U.space c) ∧
    Decimal U body k ∧
      ((s = pre ++ body ++ post ∧ n = k) ∨ (s = pre ++ '+' :: body ++ post ∧ n = k) ∨
        (s = pre ++ '-' :: body ++ post ∧ n = -k))

/-- What is true of the Unicode data: signs and the underscore are neither digits nor white space, and no
character is both. -/
structure _root_.Irspack.Chars.Sane (U : Chars) : Prop where
  signs : ∀ c, c = '+' ∨ c = '-' ∨ c = '_' → U.space c = false ∧ U.digit c = none
  disjoint : ∀ c, U.space c = true → U.digit c = none

end Irspack.Spec.Numeral
