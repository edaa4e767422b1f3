import Verif.Model.Evaluator
import Verif.Model.Retrieval

/-!
# Scores that are NaN
(/repo/cpp_source/evaluator.cpp:322-362, /repo/cpp_source/util.hpp:456-498)

The rest of the model has scores in a linear order.  Here a score is `Option S`: `none` is NaN.
-/

namespace Irspack.Nan

variable {S : Type} [LinearOrder S] [OrderBot S]

/-- `a < b` of two floating-point numbers: false if one of them is NaN -/
def below (a b : Option S) : Bool :=
  match a, b with
  | some x, some y => decide (x < y)
  | _, _ => false

/-- the candidates of a user (evaluator.cpp:322-349): `score != -inf` holds for NaN -/
def candidates (nItems : Nat) (rec : Option (List Nat)) (row : Nat → Option S) : List (Option S × Nat) :=
  (((match rec with
    | none => List.range nItems
    | some l => l).map (fun i => (row i, i))).filter (fun p => decide (p.1 ≠ some ⊥)))

/-- `operator<` of `std::pair` on `(-score, index)` in C++17 (evaluator.cpp:353-355):
`a.first < b.first || (!(b.first < a.first) && a.second < b.second)` -/
def pairLess (a b : Option S × Nat) : Bool :=
  below b.1 a.1 || (!(below a.1 b.1) && decide (a.2 < b.2))

/-- the same in C++20, where unordered first components make the pairs unordered -/
def pairLess20 (a b : Option S × Nat) : Bool :=
  below b.1 a.1 || (decide (a.1 = b.1) && a.1.isSome && decide (a.2 < b.2))

/-- the comparison of `retrieve_recommend_from_score` (util.hpp:483-485) on `(index, score)` -/
def retrieveLess (a b : Nat × Option S) : Bool := below b.2 a.2

/-- The evaluated list (evaluator.cpp:350-362): `sort k l` is the sequence after
`std::partial_sort(begin, begin + k, end)`. -/
def evaluated (sort : Nat → List (Option S × Nat) → List (Option S × Nat)) (nItems : Nat) (rec : Option (List Nat))
    (cutoff : Nat) (row : Nat → Option S) : List Nat :=
  let l := candidates nItems rec row
  let k := min cutoff l.length
  ((sort k l).take k).map Prod.snd

/-- the loop that makes the result of `retrieve_recommend_from_score` (util.hpp:487-498): only `-inf` ends it -/
def emit (cutoff : Nat) : Nat → List (Nat × Option S) → List (Nat × Option S)
  | _, [] => []
  | n, p :: rest => if n ≥ cutoff then [] else if p.2 = some ⊥ then [] else p :: emit cutoff (n + 1) rest

/-- one row of `retrieve_recommend_from_score` (util.hpp:456-498) for the candidates `l` -/
def retrieved (sort : Nat → List (Nat × Option S) → List (Nat × Option S)) (cutoff : Nat)
    (l : List (Nat × Option S)) : List (Nat × Option S) :=
  emit cutoff 0 (sort (min cutoff l.length) l)

end Irspack.Nan
