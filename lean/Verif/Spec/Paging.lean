import Mathlib.Data.List.Basic

/-!
# Asking for the next page

Nothing here refers to the model of the code.
-/

namespace Irspack.Spec

/-- The items forbidden to `n` users when asking for the next page: those forbidden before and those on the
page already shown. -/
def alsoForbid {I F : Type} (n : Nat) (forbidden : Option (List (List I))) (page : List (List (I × F))) :
    List (List I) :=
  (List.range n).map (fun j => (forbidden.getD []).getD j [] ++ (page.getD j []).map Prod.fst)

/-- The restriction to user `j` of per-user forbidden lists. -/
def forbiddenTo {I : Type} (forbidden : Option (List (List I))) (j : Nat) : Option (List (List I)) :=
  forbidden.map (fun fs => [fs.getD j []])

/-- The items shown to each of `n` users in either of two results. -/
def shownIn {I F : Type} (n : Nat) (part part' : List (List (I × F))) : List (List I) :=
  (List.range n).map (fun j => (part.getD j []).map Prod.fst ++ (part'.getD j []).map Prod.fst)

end Irspack.Spec
