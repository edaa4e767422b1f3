import Verif.Spec.Text
import Mathlib.Data.List.Forall2

/-!
# What an impression log means
-/

namespace Irspack.Spec

/-- What a candidate means: the item is what is before the last dash, and it was clicked if what is after it is
`1`.  Without a dash all of it is the item, not clicked. -/
def CandidateMeans (t : List Char) (item : List Char) (clicked : Bool) : Prop :=
  (∃ label, AtLastDash t item label ∧ (clicked = true ↔ label = ['1'])) ∨
  ('-' ∉ t ∧ item = t ∧ clicked = false)

/-- What the impressions of a row mean: a list of items, each clicked or not, in the order of the words. -/
def ImpressionsMean (space : Char → Bool) (impressions : List Char) (pairs : List (List Char × Bool)) : Prop :=
  ∃ ts, Words space impressions ts ∧ List.Forall₂ (fun t p => CandidateMeans t p.1 p.2) ts pairs

/-- `x` is at position `i` of `l` and nothing before it has the same key -/
def FirstOfKey {α κ : Type} (key : α → κ) (l : List α) (x : α) : Prop :=
  ∃ before after, l = before ++ x :: after ∧ ∀ y ∈ before, key y ≠ key x

end Irspack.Spec
