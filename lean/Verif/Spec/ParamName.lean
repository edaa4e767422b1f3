import Verif.Model.Threads

/-! # Parameter names -/

namespace Irspack.Spec.ParamName

/-- an ASCII letter or a decimal digit -/
def LetterOrDigit (U : Chars) (c : Char) : Prop :=
  ('a' ≤ c ∧ c ≤ 'z') ∨ ('A' ≤ c ∧ c ≤ 'Z') ∨ ∃ d, U.digit c = some d

/-- The documented form: a letter or digit followed by letters, digits, hyphens and underscores. -/
def Documented (U : Chars) (name : List Char) : Prop :=
  ∃ c rest, name = c :: rest ∧ LetterOrDigit U c ∧
    ∀ x ∈ rest, LetterOrDigit U x ∨ x = '-' ∨ x = '_'

end Irspack.Spec.ParamName
