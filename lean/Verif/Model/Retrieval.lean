import Mathlib.Order.BoundedOrder.Basic
import Mathlib.Data.List.Dedup
import Mathlib.Data.Real.Basic
import Verif.Model.Basic
import Verif.Model.Sparse
import Verif.Model.WorkQueue

/-!
# Retrieval of recommendations

* `retrieve_recommend_from_score` (/repo/cpp_source/util.hpp:426-504)
* `ItemIDMapper`, `IDMapper` (/repo/src/irspack/utils/id_mapping.py)
* `get_score_remove_seen`, `get_score_cold_user_remove_seen`
  (/repo/src/irspack/recommenders/base.py:308-322, 391-403)

Scores given by the caller are in a bounded linear order `S` (`⊥ = -inf`, `⊤ = +inf`; NaN is out of
scope).  The C++ code stores scores as `float`; `cast : S → F` is that conversion (the identity for
float32 arrays).
-/

namespace Irspack.Retrieval

/-! ## C++ -/

section cpp
variable {S F : Type}

/-- What the C++ standard guarantees for `std::partial_sort(begin, begin + k, end, comp)` with
`comp(a, b) = score a > score b`: the range is permuted, its first `k` elements are sorted and none of
the others precedes any of them.  The order of equal scores is unspecified. -/
structure IsPartialSort {A : Type} [LinearOrder F] (k : Nat) (score : A → F) (l l' : List A) : Prop where
  perm : l'.Perm l
  sorted : (l'.take k).Pairwise (fun a b => score b ≤ score a)
  rest : ∀ a ∈ l'.take k, ∀ b ∈ l'.drop k, score b ≤ score a

/-- The output loop (util.hpp:486-498): stop at `cutoff` items or at the first `-inf`. -/
def emit [LinearOrder F] [OrderBot F] (cutoff : Nat) : Nat → List (Nat × F) → List (Nat × F)
  | _, [] => []
  | n, p :: rest =>
    if n ≥ cutoff then [] else if p.2 = ⊥ then [] else p :: emit cutoff (n + 1) rest

/-- Candidates of one row (util.hpp:459-478): out-of-range allowed indices are dropped, repetitions
are kept. -/
def holder (nItems : Nat) (allowed : Option (List Int)) (row : Nat → F) : List (Nat × F) :=
  match allowed with
  | some l => (l.filter (fun i : Int => decide (i < nItems) && decide (i ≥ 0))).map
      (fun i : Int => (i.toNat, row i.toNat))
  | none => (List.range nItems).map (fun i => (i, row i))

/-- The allowed list for row `u` (util.hpp:460-468). -/
def allowedFor (allowed : List (List Int)) (u : Nat) : Option (List Int) :=
  match allowed with
  | [] => none
  | [l] => some l
  | ls => some (ls.getD u [])

/-- Body of the loop for row `u` (util.hpp:456-498).  `psort` is the partial sort the library
performs. -/
def retrieveRow [LinearOrder F] [OrderBot F]
    (psort : Nat → List (Nat × F) → List (Nat × F)) (cast : S → F) (dflt : S)
    (nItems : Nat) (score : List (List S)) (allowed : List (List Int)) (cutoff u : Nat) :
    List (Nat × F) :=
  let h := holder nItems (allowedFor allowed u) (fun i => cast ((score.getD u []).getD i dflt))
  emit cutoff 0 (psort (min cutoff h.length) h)

/-- The argument checks (util.hpp:433-437). -/
def checkRetrieve (nRows nAllowed nThreads : Nat) : Except Err Unit :=
  if ¬ nThreads > 0 then .error .invalidArgument
  else if ¬ (nRows = nAllowed ∨ nAllowed = 1 ∨ nAllowed = 0) then .error .invalidArgument
  else .ok ()

/-- `retrieve_recommend_from_score` as a parallel region with `min(n_threads, n_users)` workers
(util.hpp:426-504).  Workers are started by `std::async` without a launch policy and only their
futures are dropped, so a deferred worker never runs: it does not occur in `sched`. -/
def retrieveRegion [LinearOrder F] [OrderBot F]
    (psort : Nat → List (Nat × F) → List (Nat × F)) (cast : S → F) (dflt : S)
    (nItems : Nat) (score : List (List S)) (allowed : List (List Int)) (cutoff nThreads : Nat)
    (sched : List (Fin (min nThreads score.length))) :
    Region (min nThreads score.length) Unit (Nat → List (Nat × F)) :=
  match checkRetrieve score.length allowed.length nThreads with
  | .error e => .error e
  | .ok () => .ok (WorkQueue.run score.length 1
      (fun u l X => (l, Function.update X u
        (retrieveRow psort cast dflt nItems score allowed cutoff u)))
      (WorkQueue.init () (fun _ => [])) sched)

/-- `retrieve_recommend_from_score`, sequentially. -/
def retrieve [LinearOrder F] [OrderBot F]
    (psort : Nat → List (Nat × F) → List (Nat × F)) (cast : S → F) (dflt : S)
    (nItems : Nat) (score : List (List S)) (allowed : List (List Int)) (cutoff nThreads : Nat) :
    Except Err (List (List (Nat × F))) :=
  match checkRetrieve score.length allowed.length nThreads with
  | .error e => .error e
  | .ok () => .ok ((List.range score.length).map
      (retrieveRow psort cast dflt nItems score allowed cutoff))

end cpp

/-! ## ItemIDMapper -/

section mapper
variable {I U S F : Type} [DecidableEq I] [DecidableEq U]

/-- `ItemIDMapper` (id_mapping.py:51-71).  `item_id_to_index` is determined by `item_ids`. -/
structure ItemIDMapper (I : Type) where
  itemIds : List I
  deriving DecidableEq

/-- `ItemIDMapper.__init__` (id_mapping.py:64-71): the dict has one key per distinct ID. -/
def ItemIDMapper.make (itemIds : List I) : Except Err (ItemIDMapper I) :=
  if itemIds.length ≠ itemIds.dedup.length then .error .valueError else .ok ⟨itemIds⟩

/-- `item_id_to_index.get(id)`.  The dict comprehension keeps the last index of a repeated ID, but
repeated IDs are rejected by the constructor. -/
def ItemIDMapper.index? (m : ItemIDMapper I) (id : I) : Option Nat :=
  if id ∈ m.itemIds then some (m.itemIds.idxOf id) else none

/-- `_item_id_list_to_index_list` (id_mapping.py:81-82). -/
def ItemIDMapper.toIndexList (m : ItemIDMapper I) (ids : List I) : List Nat := ids.filterMap m.index?

/-- A user profile: a list of item IDs, or a dict from item IDs to weights (its items in order, keys
distinct). -/
inductive Profile (I : Type) where
  | ids (l : List I)
  | weights (l : List (I × ℝ))

/-- `_user_profile_to_data_col` (id_mapping.py:84-100): (data, col). -/
def ItemIDMapper.profileDataCol (m : ItemIDMapper I) (p : Profile I) : List ℝ × List Nat :=
  match p with
  | .ids l => let cols := m.toIndexList l; (List.replicate cols.length 1, cols)
  | .weights l =>
    let kept := l.filterMap (fun q => (m.index? q.1).map (fun i => (q.2, i)))
    (kept.map Prod.fst, kept.map Prod.snd)

/-- The arrays of a `csr_matrix((data, indices, indptr), shape)`. -/
structure CsrArrays where
  data : List ℝ
  indices : List Nat
  indptr : List Nat
  nRows : Nat
  nCols : Nat

/-- Entry `(u, i)` of a CSR matrix: the sum of the stored values of row `u` in column `i` (scipy's
convention for repeated entries). -/
noncomputable def CsrArrays.get (c : CsrArrays) (u i : Nat) : ℝ :=
  (((List.range' (c.indptr.getD u 0) (c.indptr.getD (u + 1) 0 - c.indptr.getD u 0)).filter
    (fun k => decide (c.indices[k]? = some i))).map (fun k => c.data.getD k 0)).sum

/-- `X.nonzero()` of a CSR matrix contains `(u, i)`: some stored value there is not zero
(`scipy`: entries of the COO form with `data != 0`). -/
def CsrArrays.nonzero (c : CsrArrays) (u i : Nat) : Prop :=
  ∃ k, c.indptr.getD u 0 ≤ k ∧ k < c.indptr.getD (u + 1) 0 ∧ c.indices[k]? = some i ∧
    c.data.getD k 0 ≠ 0

/-- Loop of `list_of_user_profile_to_matrix` (id_mapping.py:117-125): the state is
(data, col, indptr, indptr_current). -/
def ItemIDMapper.matrixLoop (m : ItemIDMapper I) :
    List (Profile I) → List ℝ × List Nat × List Nat × Nat → List ℝ × List Nat × List Nat × Nat
  | [], s => s
  | p :: ps, (data, col, indptr, cur) =>
    let dc := m.profileDataCol p
    m.matrixLoop ps (data ++ dc.1, col ++ dc.2, indptr ++ [cur + dc.2.length], cur + dc.2.length)

/-- `list_of_user_profile_to_matrix` (id_mapping.py:102-129). -/
def ItemIDMapper.profilesToMatrix (m : ItemIDMapper I) (ps : List (Profile I)) : CsrArrays :=
  let s := m.matrixLoop ps ([], [], [0], 0)
  ⟨s.1, s.2.1, s.2.2.1, ps.length, m.itemIds.length⟩

/-- What numpy guarantees for `a.argsort()` (default, unstable): a permutation of the positions that
lists the values in non-decreasing order. -/
structure IsArgsort {S : Type} [LinearOrder S] (a : List S) (p : List Nat) : Prop where
  perm : p.Perm (List.range a.length)
  sorted : (p.map (fun i => a[i]?)).Pairwise
    (fun x y => ∀ s t, x = some s → y = some t → s ≤ t)

variable [LinearOrder S] [BoundedOrder S]

/-- The loop of `score_to_recommended_items` (id_mapping.py:243-256), `n` recommendations so far.
The cutoff is compared *after* appending. -/
def ItemIDMapper.pick (m : ItemIDMapper I) (score : List S) (cutoff : Nat)
    (forbidden : Option (List I)) : Nat → List Nat → Except Err (List (I × S))
  | _, [] => .ok []
  | n, i :: rest =>
    match score[i]?, m.itemIds[i]? with
    | some s, some id =>
      if s = ⊥ ∨ s = ⊤ then m.pick score cutoff forbidden n rest
      else if ∃ f, forbidden = some f ∧ id ∈ f then m.pick score cutoff forbidden n rest
      else if n + 1 ≥ cutoff then .ok [(id, s)]
      else match m.pick score cutoff forbidden (n + 1) rest with
        | .error e => .error e
        | .ok l => .ok ((id, s) :: l)
    | _, _ => .error .indexError

/-- `high_score_inds` (id_mapping.py:234-242): (allowed) item indices by decreasing score. -/
def ItemIDMapper.highScoreInds (m : ItemIDMapper I) (argsort : List S → List Nat) (score : List S)
    (allowed : Option (List I)) : List Nat :=
  match allowed with
  | some ids =>
    let idx := m.toIndexList ids
    ((argsort (idx.map (fun i => score.getD i ⊥))).reverse).map (fun k => idx.getD k 0)
  | none => (argsort score).reverse

/-- `score_to_recommended_items` (id_mapping.py:225-256) on a one-dimensional score array. -/
def ItemIDMapper.scoreToItems (m : ItemIDMapper I) (argsort : List S → List Nat) (score : List S)
    (cutoff : Nat) (allowed forbidden : Option (List I)) : Except Err (List (I × S)) :=
  if score.length ≠ m.itemIds.length then .error .valueError
  else m.pick score cutoff forbidden 0 (m.highScoreInds argsort score allowed)

/-- `score[u, idx] = -inf` (id_mapping.py:304-308). -/
def blank (row : List S) (idx : List Nat) : List S := idx.foldl (fun r i => r.set i ⊥) row

/-- The allowed index lists passed to C++ (id_mapping.py:296-303). -/
def ItemIDMapper.allowedIndices (m : ItemIDMapper I) (allowed : Option (List I))
    (perUser : Option (List (List I))) : List (List Int) :=
  match perUser, allowed with
  | some ls, _ => ls.map (fun l => (m.toIndexList l).map Int.ofNat)
  | none, some l => [(m.toIndexList l).map Int.ofNat]
  | none, none => []

/-- The score matrix with the forbidden items blanked (id_mapping.py:304-308). -/
def ItemIDMapper.blankForbidden (m : ItemIDMapper I) (score : List (List S))
    (forbidden : Option (List (List I))) : List (List S) :=
  match forbidden with
  | none => score
  | some fs => score.mapIdx (fun u row => blank row (m.toIndexList (fs.getD u [])))

/-- The final comprehension (id_mapping.py:316-322): `self.item_ids[item_index]`. -/
def ItemIDMapper.toIds (m : ItemIDMapper I) (raw : List (Nat × F)) : List (I × F) :=
  raw.filterMap (fun p => (m.itemIds[p.1]?).map (fun id => (id, p.2)))

/-- `score_to_recommended_items_batch` (id_mapping.py:258-324) on an array with `nCols` columns.
The `assert`s give `AssertionError`. (`item_ids[item_index]` never fails because item indices are
below the number of columns; the comprehension is modelled by `filterMap`.) -/
def ItemIDMapper.scoreToItemsBatch [LinearOrder F] [OrderBot F] (m : ItemIDMapper I)
    (psort : Nat → List (Nat × F) → List (Nat × F)) (cast : S → F)
    (nCols : Nat) (score : List (List S)) (cutoff : Nat) (allowed : Option (List I))
    (perUser : Option (List (List I))) (forbidden : Option (List (List I))) (nThreads : Nat) :
    Except Err (List (List (I × F))) :=
  if nCols ≠ m.itemIds.length then .error .valueError
  else if ∃ fs, forbidden = some fs ∧ fs.length ≠ score.length then .error .assertionError
  else if ∃ ls, perUser = some ls ∧ ls.length ≠ score.length then .error .assertionError
  else
    match retrieve psort cast ⊥ nCols (m.blankForbidden score forbidden)
        (m.allowedIndices allowed perUser) cutoff nThreads with
    | .error e => .error e
    | .ok raw => .ok (raw.map m.toIds)

/-! ## Recommenders as seen by the mappers -/

/-- `scores[m.nonzero()] = -inf` for one row (base.py:321, 402). -/
def maskRow (row : List S) (nz : Nat → Prop) [DecidablePred nz] : List S :=
  row.mapIdx (fun i s => if nz i then ⊥ else s)

/-- A recommender: `get_score` and `get_score_cold_user` are arbitrary; `trainNz u i` is
`X_train_all[u, i] != 0`. -/
structure Rec (S : Type) where
  nUsers : Nat
  nItems : Nat
  trainNz : Nat → Nat → Bool
  getScore : List Nat → Except Err (List (List S))
  getScoreCold : CsrArrays → Except Err (List (List S))

/-- `get_score_remove_seen` (base.py:308-322). -/
def Rec.getScoreRemoveSeen (r : Rec S) (users : List Nat) : Except Err (List (List S)) :=
  match r.getScore users with
  | .error e => .error e
  | .ok sc => .ok (sc.mapIdx (fun k row => maskRow row (fun i => r.trainNz (users.getD k 0) i = true)))

open Classical in
/-- `get_score_cold_user_remove_seen` (base.py:391-403). -/
noncomputable def Rec.getScoreColdRemoveSeen (r : Rec S) (X : CsrArrays) :
    Except Err (List (List S)) :=
  match r.getScoreCold X with
  | .error e => .error e
  | .ok sc => .ok (sc.mapIdx (fun k row => maskRow row (fun i => X.nonzero k i)))

/-- `recommend_for_new_user` (id_mapping.py:131-170).  `[0]` on an empty array is an `IndexError`. -/
noncomputable def ItemIDMapper.recommendNewUser (m : ItemIDMapper I) (argsort : List S → List Nat)
    (r : Rec S) (profile : Profile I) (cutoff : Nat) (allowed forbidden : Option (List I)) :
    Except Err (List (I × S)) :=
  if r.nItems ≠ m.itemIds.length then .error .valueError
  else
    let dc := m.profileDataCol profile
    match r.getScoreColdRemoveSeen ⟨dc.1, dc.2, [0, dc.2.length], 1, m.itemIds.length⟩ with
    | .error e => .error e
    | .ok [] => .error .indexError
    | .ok (row :: _) => m.scoreToItems argsort row cutoff allowed forbidden

/-- `recommend_for_new_user_batch` (id_mapping.py:172-223). -/
noncomputable def ItemIDMapper.recommendNewUserBatch [LinearOrder F] [OrderBot F] (m : ItemIDMapper I)
    (psort : Nat → List (Nat × F) → List (Nat × F)) (cast : S → F) (r : Rec S)
    (profiles : List (Profile I)) (cutoff : Nat) (allowed : Option (List I))
    (perUser forbidden : Option (List (List I))) (nThreads : Nat) :
    Except Err (List (List (I × F))) :=
  if r.nItems ≠ m.itemIds.length then .error .valueError
  else
    match r.getScoreColdRemoveSeen (m.profilesToMatrix profiles) with
    | .error e => .error e
    | .ok sc => m.scoreToItemsBatch psort cast r.nItems sc cutoff allowed perUser forbidden nThreads

/-- `IDMapper` (id_mapping.py:327-354). -/
structure IDMapper (U I : Type) where
  items : ItemIDMapper I
  userIds : List U
  deriving DecidableEq

/-- `IDMapper.__init__` (id_mapping.py:344-349). -/
def IDMapper.make (userIds : List U) (itemIds : List I) : Except Err (IDMapper U I) :=
  match ItemIDMapper.make itemIds with
  | .error e => .error e
  | .ok m => if userIds.length ≠ userIds.dedup.length then .error .valueError else .ok ⟨m, userIds⟩

/-- `recommend_for_known_user_id` (id_mapping.py:355-398). -/
def IDMapper.recommendKnownUser (m : IDMapper U I) (argsort : List S → List Nat) (r : Rec S)
    (user : U) (cutoff : Nat) (allowed forbidden : Option (List I)) : Except Err (List (I × S)) :=
  if r.nUsers ≠ m.userIds.length then .error .valueError
  else if user ∉ m.userIds then .error .runtimeError
  else
    match r.getScoreRemoveSeen [m.userIds.idxOf user] with
    | .error e => .error e
    | .ok [] => .error .indexError
    | .ok (row :: _) => m.items.scoreToItems argsort row cutoff allowed forbidden

/-- `recommend_for_known_user_batch` (id_mapping.py:400-453); an unknown user is a `KeyError`. -/
def IDMapper.recommendKnownUserBatch [LinearOrder F] [OrderBot F] (m : IDMapper U I)
    (psort : Nat → List (Nat × F) → List (Nat × F)) (cast : S → F) (r : Rec S) (users : List U)
    (cutoff : Nat) (allowed : Option (List I)) (perUser forbidden : Option (List (List I)))
    (nThreads : Nat) : Except Err (List (List (I × F))) :=
  if r.nUsers ≠ m.userIds.length then .error .valueError
  else if ¬ ∀ u ∈ users, u ∈ m.userIds then .error .keyError
  else
    match r.getScoreRemoveSeen (users.map (fun u => m.userIds.idxOf u)) with
    | .error e => .error e
    | .ok sc =>
      m.items.scoreToItemsBatch psort cast r.nItems sc cutoff allowed perUser forbidden nThreads

end mapper

end Irspack.Retrieval
