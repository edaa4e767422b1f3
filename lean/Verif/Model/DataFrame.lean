import Verif.Model.Evaluator
import Mathlib.Data.List.Dedup

/-!
# Evaluation of data frames (/repo/src/irspack/evaluation/evaluate_df_to_df.py)

A frame is the list of its rows `(user, item)` in row order; other columns are not used.
-/

namespace Irspack.Evaluation

/-- `d.setdefault(k, []).append(v)` on an insertion-ordered dict (evaluate_df_to_df.py:57, 64). -/
def setdefaultAppend {K V : Type} [DecidableEq K] (d : List (K × List V)) (k : K) (v : V) :
    List (K × List V) :=
  match d with
  | [] => [(k, [v])]
  | (k', vs) :: rest =>
    if k' = k then (k', vs ++ [v]) :: rest else (k', vs) :: setdefaultAppend rest k v

/-- `d.get(k, [])` (evaluate_df_to_df.py:69). -/
def getD {K V : Type} [DecidableEq K] (d : List (K × List V)) (k : K) : List V :=
  match d with
  | [] => []
  | (k', vs) :: rest => if k' = k then vs else getD rest k

/-- `sorted(list(set(l)))` (evaluate_df_to_df.py:44, 46-48). -/
def sortedSet {A : Type} [LinearOrder A] (l : List A) : List A :=
  l.dedup.mergeSort (fun a b => decide (a ≤ b))

/-- `{x: i for i, x in enumerate(ids)}[x]` (evaluate_df_to_df.py:45, 49 and the lookups 55-56,
62-63): `KeyError` for an unknown key. -/
def indexIn {A : Type} [DecidableEq A] (ids : List A) (x : A) : Except Err Nat :=
  if x ∈ ids then .ok (ids.idxOf x) else .error .keyError

/-- One of the two grouping loops (evaluate_df_to_df.py:52-57, 59-64). -/
def groupRows {U I : Type} [DecidableEq U] [DecidableEq I] (userIds : List U) (itemIds : List I)
    (rows : List (U × I)) (d : List (Nat × List Nat)) : Except Err (List (Nat × List Nat)) :=
  match rows with
  | [] => .ok d
  | (u, i) :: rest =>
    match indexIn userIds u with
    | .error e => .error e
    | .ok ui =>
      match indexIn itemIds i with
      | .error e => .error e
      | .ok ii => groupRows userIds itemIds rest (setdefaultAppend d ui ii)

/-- `df[df[user].isin(other[user])]` (evaluate_df_to_df.py:36-38, 40-42). -/
def restrictTo {U I J : Type} [DecidableEq U] (df : List (U × I)) (other : List (U × J)) :
    List (U × I) :=
  df.filter (fun r => decide (r.1 ∈ other.map Prod.fst))

/-- `evaluate_recommendation_df` after `get_n_threads` (evaluate_df_to_df.py:9-77).  User and item
identifiers are compared with `sorted`, so they come from linear orders.  Column names that are not
identifiers (which break `getattr` on the row tuples) are not modelled. -/
noncomputable def evaluateDf {U I : Type} [LinearOrder U] [LinearOrder I] (recs gt : List (U × I))
    (nThreads : Nat) : Except Err MetricDict :=
  let recs := restrictTo recs gt
  let gt := restrictTo gt recs
  let userIds := sortedSet (recs.map Prod.fst)
  let itemIds := sortedSet (recs.map Prod.snd ++ gt.map Prod.snd)
  match groupRows userIds itemIds recs [] with
  | .error e => .error e
  | .ok recD =>
    match groupRows userIds itemIds gt [] with
    | .error e => .error e
    | .ok gtD =>
      match evaluateList (recD.map Prod.snd) (recD.map (fun p => getD gtD p.1)) itemIds.length
          nThreads with
      | .error e => .error e
      | .ok m => .ok (m.asDict itemIds.length)

end Irspack.Evaluation
