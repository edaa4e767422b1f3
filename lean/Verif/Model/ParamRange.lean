import Verif.Model.Threads
import Mathlib.Order.Defs.LinearOrder

/-!
# Parameter names and ranges (/repo/src/irspack/optimization/parameter_range.py)
-/

namespace Irspack.Tuning

/-- Regular expressions with the constructs that occur in `NAME_CHECKER`. -/
inductive Re where
  | cls (p : Char → Bool)
  | seq (a b : Re)
  | star (a : Re)
  | plus (a : Re)

/-- The strings matched by a regular expression. -/
inductive Matches : Re → List Char → Prop
  | cls {p c} : p c = true → Matches (.cls p) [c]
  | seq {a b s t} : Matches a s → Matches b t → Matches (.seq a b) (s ++ t)
  | starNil {a} : Matches (.star a) []
  | starCons {a s t} : Matches a s → Matches (.star a) t → Matches (.star a) (s ++ t)
  | plus {a s t} : Matches a s → Matches (.star a) t → Matches (.plus a) (s ++ t)

/-- `[a-zA-Z\d]`; `\d` is any Unicode decimal digit in a `str` pattern -/
def alnum (U : Chars) (c : Char) : Bool :=
  ('a' ≤ c && c ≤ 'z') || ('A' ≤ c && c ≤ 'Z') || (U.digit c).isSome

/-- `[\-_]` -/
def dash (c : Char) : Bool := c = '-' || c = '_'

/-- `([a-zA-Z\d]+[\-_]*)+` (parameter_range.py:8) -/
def nameChecker (U : Chars) : Re := .plus (.seq (.plus (.cls (alnum U))) (.star (.cls dash)))

/-- `is_valid_param_name` (parameter_range.py:11-14): `match` anchors at the start, `$` at the end or before
a newline at the end. -/
def isValidParamName (U : Chars) (name : List Char) : Prop :=
  ∃ m rest, name = m ++ rest ∧ Matches (nameChecker U) m ∧ (rest = [] ∨ rest = ['\n'])

/-- A Python number in a comparison: `none` is NaN, all comparisons with which are false. -/
abbrev PyNum (K : Type) := Option K

/-- `low > high` -/
def gt {K : Type} [LT K] : PyNum K → PyNum K → Prop
  | some a, some b => b < a
  | _, _ => False

/-- What a range asks the trial for. -/
inductive Request (K V : Type) where
  | float (low high : PyNum K) (log : Bool)
  | int (low high : PyNum K) (step : Int) (log : Bool)
  | categorical (choices : List V)

/-- A parameter range: a name and the request made by `suggest`. -/
structure ParameterRange (K V : Type) where
  name : List Char
  request : Request K V

variable {K V : Type} [LT K]

open Classical in
/-- the constructors with bounds (parameter_range.py:24-29, 36-43, 49-56, 62-70, 78-85): the name is
checked first; either failure is a `ValueError`. -/
noncomputable def boundedRange (U : Chars) (name : List Char) (low high : PyNum K) (req : Request K V) :
    Except Err (ParameterRange K V) :=
  if ¬ isValidParamName U name then .error .valueError
  else if gt low high then .error .valueError
  else .ok ⟨name, req⟩

/-- `UniformFloatRange` (parameter_range.py:36-46) -/
noncomputable def uniformFloat (U : Chars) (name : List Char) (low high : PyNum K) :
    Except Err (ParameterRange K V) := boundedRange U name low high (.float low high false)

/-- `LogUniformFloatRange` (parameter_range.py:49-59) -/
noncomputable def logUniformFloat (U : Chars) (name : List Char) (low high : PyNum K) :
    Except Err (ParameterRange K V) := boundedRange U name low high (.float low high true)

/-- `UniformIntegerRange` (parameter_range.py:62-75) -/
noncomputable def uniformInteger (U : Chars) (name : List Char) (low high : PyNum K) (step : Int) :
    Except Err (ParameterRange K V) := boundedRange U name low high (.int low high step false)

/-- `LogUniformIntegerRange` (parameter_range.py:78-88) -/
noncomputable def logUniformInteger (U : Chars) (name : List Char) (low high : PyNum K) :
    Except Err (ParameterRange K V) := boundedRange U name low high (.int low high 1 true)

open Classical in
/-- `CategoricalRange` (parameter_range.py:91-97) -/
noncomputable def categorical (U : Chars) (name : List Char) (choices : List V) :
    Except Err (ParameterRange K V) :=
  if ¬ isValidParamName U name then .error .valueError else .ok ⟨name, .categorical choices⟩

end Irspack.Tuning
