import Mathlib.Data.Real.Basic
import Mathlib.Data.Real.Archimedean
import Mathlib.Algebra.Order.Floor.Ring
import Mathlib.Data.List.Dedup
import Mathlib.Data.List.Sort
import Verif.Model.Basic

/-!
# Splitting interactions

* `rowwise_train_test_split` (/repo/src/irspack/utils/__init__.py:28-69) and the C++ routines below it
  (/repo/cpp_source/util.hpp:72-156)
* `df_to_sparse` (/repo/src/irspack/utils/__init__.py:72-130)
* `split_last_n_interaction_df` (/repo/src/irspack/split/time.py:7-59)
* `UserTrainTestInteractionPair` and the user hold-out (/repo/src/irspack/split/userwise.py)
* `holdout_specific_interactions` (/repo/src/irspack/split/specified.py)

Random choices are arbitrary permutations.  Values are real numbers; the rounding of a double-precision
operation is an arbitrary function `fl : ℝ → ℝ` of the exact result.  NaN is out of scope.
-/

namespace Irspack.Split

/-! ## Sparse matrices -/

/-- A CSR matrix: the stored (column, value) pairs of each row. -/
structure Csr (V : Type) where
  nCols : Nat
  rows : List (List (Nat × V))

/-- Sum of the stored values of `row` in column `i`. -/
def rowEntry {V : Type} [AddCommMonoid V] (row : List (Nat × V)) (i : Nat) : V :=
  ((row.filter (fun p => decide (p.1 = i))).map Prod.snd).sum

/-- Merge repeated columns, adding their values, and sort by column: what `setFromTriplets` (with
`+`) and scipy's COO → CSR conversion do to a row.  Explicit zeros are kept. -/
def collapse {V : Type} [AddCommMonoid V] (row : List (Nat × V)) : List (Nat × V) :=
  ((row.map Prod.fst).dedup.insertionSort (· ≤ ·)).map (fun c => (c, rowEntry row c))

/-! ## rowwise_train_test_split -/

/-- Conversion of a `double` to `int64_t`, or Python's `int(x)`: truncation towards zero. -/
noncomputable def truncZ (x : ℝ) : ℤ := if 0 ≤ x then ⌊x⌋ else ⌈x⌉

/-- `SplitByRatioFunction::get_n_test` (util.hpp:126-133). -/
noncomputable def nTestRatio (fl : ℝ → ℝ) (ratio : ℝ) (ceil : Bool) (nnz : Nat) : Nat :=
  if ceil then ⌈fl (nnz * ratio)⌉₊ else ⌊fl (nnz * ratio)⌋₊

/-- `SplitFixedN::get_n_test` (util.hpp:149-151). -/
def nTestFixed (nHeldOut nnz : Nat) : Nat := min nnz nHeldOut

/-- The triplets of one row, in shuffled order (util.hpp:84-106).  The triplets are
`Eigen::Triplet<int64_t>`, so the values are truncated.  `perm` is the shuffled `index_`. -/
noncomputable def rowTriplets (row : List (Nat × ℝ)) (perm : List Nat) : List (Nat × ℤ) :=
  perm.filterMap (fun k => (row[k]?).map (fun p => (p.1, truncZ p.2)))

/-- `split_imple` (util.hpp:72-115) for one row: (train, test).  The first `n_test` shuffled entries
are the test entries.  (Were `n_test` larger than the row, the code would read out of bounds; see
`C23_sizes`.) -/
noncomputable def splitRow (nTest : Nat → Nat) (row : List (Nat × ℝ)) (perm : List Nat) :
    List (Nat × ℤ) × List (Nat × ℤ) :=
  let t := rowTriplets row perm
  let n := nTest row.length
  (collapse (t.drop n), collapse (t.take n))

/-- `split_imple` (util.hpp:72-115); `shuf r` is the order `std::shuffle` gives to row `r`.  The
integer sums are stored as `double` again. -/
noncomputable def splitImple (nTest : Nat → Nat) (shuf : Nat → List Nat) (X : Csr ℝ) : Csr ℝ × Csr ℝ :=
  let toReal := fun (l : List (Nat × ℤ)) => l.map (fun p => (p.1, (p.2 : ℝ)))
  (⟨X.nCols, X.rows.mapIdx (fun r row => toReal (splitRow nTest row (shuf r)).1)⟩,
   ⟨X.nCols, X.rows.mapIdx (fun r row => toReal (splitRow nTest row (shuf r)).2)⟩)

open Classical in
/-- `rowwise_train_test_split` (utils/__init__.py:28-69, util.hpp:117-156).  The conversions to
double and back to the original dtype are the identity here (they are made in `rowwiseSplitTyped`).  (A negative `n_test` is refused by
the binding: `TypeError`.) -/
noncomputable def rowwiseSplit (fl : ℝ → ℝ) (X : Csr ℝ) (testRatio : ℝ) (nTest : Option Int)
    (ceil : Bool) (shuf : Nat → List Nat) : Except Err (Csr ℝ × Csr ℝ) :=
  match nTest with
  | none =>
    if ¬ (testRatio ≤ 1 ∧ testRatio ≥ 0) then .error .invalidArgument
    else .ok (splitImple (nTestRatio fl testRatio ceil) shuf X)
  | some n => if n < 0 then .error .typeError else .ok (splitImple (nTestFixed n.toNat) shuf X)

/-! ## df_to_sparse -/

section frames
variable {U I T : Type} [LinearOrder U] [LinearOrder I] [LinearOrder T]

/-- A row of an interaction frame. -/
structure Row (U I T : Type) where
  user : U
  item : I
  time : T
  rating : ℝ

/-- Categories of `pd.Categorical(values, categories=ids)` (utils/__init__.py:114-115): the given
list, which must not have repetitions (`ValueError`), or the sorted distinct values.  (For values that
cannot be ordered pandas keeps the order of appearance; not modelled.) -/
def categories {A : Type} [LinearOrder A] (values : List A) (ids : Option (List A)) :
    Except Err (List A) :=
  match ids with
  | some l => if l.Nodup then .ok l else .error .valueError
  | none => .ok (values.dedup.insertionSort (· ≤ ·))

/-- `df[col].isin(ids)` selection (utils/__init__.py:109-112). -/
def keepIn {A R : Type} [DecidableEq A] (get : R → A) (ids : Option (List A)) (df : List R) : List R :=
  match ids with
  | some l => df.filter (fun r => decide (get r ∈ l))
  | none => df

/-- The value of a row (utils/__init__.py:121-124): 1 without a rating column. -/
def valueOf (useRating : Bool) (r : Row U I T) : ℝ := if useRating then r.rating else 1

/-- `csr_matrix((data, (row, col)), shape)`: repeated positions are added up. -/
def cooToCsr (nRows nCols : Nat) (triplets : List (Nat × Nat × ℝ)) : Csr ℝ :=
  ⟨nCols, (List.range nRows).map (fun u =>
    collapse ((triplets.filter (fun t => decide (t.1 = u))).map Prod.snd))⟩

/-- `df_to_sparse` (utils/__init__.py:72-130): (matrix, user ids, item ids). -/
def dfToSparse (df : List (Row U I T)) (userIds : Option (List U)) (itemIds : Option (List I))
    (useRating : Bool) : Except Err (Csr ℝ × List U × List I) :=
  let df' := keepIn Row.item itemIds (keepIn Row.user userIds df)
  match categories (df'.map Row.user) userIds with
  | .error e => .error e
  | .ok us =>
    match categories (df'.map Row.item) itemIds with
    | .error e => .error e
    | .ok is =>
      .ok (cooToCsr us.length is.length
        (df'.map (fun r => (us.idxOf r.user, is.idxOf r.item, valueOf useRating r))), us, is)

/-! ## split_last_n_interaction_df -/

/-- What `df.sort_values([user, time])` guarantees: a permutation, ordered by user and then time.
The order of equal keys is unspecified. -/
def IsSorted (srt : List (Row U I T) → List (Row U I T)) : Prop :=
  ∀ df, (srt df).Perm df ∧
    (srt df).Pairwise (fun a b => a.user < b.user ∨ (a.user = b.user ∧ a.time ≤ b.time))

/-- `groupby(user).cumcount(ascending=False)` (time.py:42): for each row the number of later rows of
the same user. -/
def withLater : List (Row U I T) → List (Row U I T × Nat)
  | [] => []
  | r :: rs => (r, rs.countP (fun q => decide (q.user = r.user))) :: withLater rs

/-- The number of rows to hold out for a user with `n` rows (time.py:44-55): `n_heldout`, or
floor/ceil of the rounded product.  Nothing is checked: it may be negative or exceed `n`. -/
noncomputable def heldOut (fl : ℝ → ℝ) (nHeldout : Option Int) (ratio : ℝ) (ceil : Bool) (n : Nat) : Int :=
  match nHeldout with
  | some k => k
  | none => if ceil then ⌈fl (n * ratio)⌉ else ⌊fl (n * ratio)⌋

/-- `split_last_n_interaction_df` (time.py:7-59): (first interactions, held-out interactions). -/
noncomputable def splitLastN (fl : ℝ → ℝ) (srt : List (Row U I T) → List (Row U I T))
    (df : List (Row U I T)) (nHeldout : Option Int) (ratio : ℝ) (ceil : Bool) :
    List (Row U I T) × List (Row U I T) :=
  let s := srt df
  let test := fun (p : Row U I T × Nat) => decide ((p.2 : Int) <
    heldOut fl nHeldout ratio ceil (s.countP (fun q => decide (q.user = p.1.user))))
  (((withLater s).filter (fun p => !test p)).map Prod.fst, ((withLater s).filter test).map Prod.fst)

/-! ## UserTrainTestInteractionPair -/

/-- `UserTrainTestInteractionPair` (userwise.py:20-85).  `n_users`, `n_items` and `X_all` are
determined by the rest. -/
structure UserPair (U I : Type) where
  userIds : List U
  xTrain : Csr ℝ
  xTest : Csr ℝ
  itemIds : Option (List I)

/-- `X.shape`. -/
def Csr.shape {V : Type} (X : Csr V) : Nat × Nat := (X.rows.length, X.nCols)

/-- An empty matrix. -/
def Csr.empty (shape : Nat × Nat) : Csr ℝ := ⟨shape.2, List.replicate shape.1 []⟩

/-- `UserTrainTestInteractionPair.__init__` (userwise.py:54-85). -/
def UserPair.make (userIds : List U) (xTrain : Csr ℝ) (xTest : Option (Csr ℝ))
    (itemIds : Option (List I)) : Except Err (UserPair U I) :=
  if userIds.length ≠ xTrain.rows.length then .error .valueError
  else if ∃ xt ∈ xTest, xTrain.shape ≠ xt.shape then .error .valueError
  else
    let xt := xTest.getD (Csr.empty xTrain.shape)
    if ∃ l ∈ itemIds, l.length ≠ xt.nCols then .error .valueError
    else .ok ⟨userIds, xTrain, xt, itemIds⟩

open Classical in
/-- Sum of two CSR matrices of the same shape: scipy merges the rows and drops entries that cancel. -/
noncomputable def Csr.add (A B : Csr ℝ) : Csr ℝ :=
  ⟨A.nCols, List.zipWith (fun a b => (collapse (a ++ b)).filter (fun p => decide (p.2 ≠ 0)))
    A.rows B.rows⟩

/-- `X_all` (userwise.py:79). -/
noncomputable def UserPair.xAll (p : UserPair U I) : Csr ℝ := p.xTrain.add p.xTest

open Classical in
/-- `_X_to_df` (userwise.py:87-100): `X.nonzero()` skips explicit zeros but `X.data` does not, so with
an explicit zero the columns have different lengths (`ValueError`).  An index error of `item_ids[c]`
cannot occur in a pair accepted by the constructor. -/
noncomputable def UserPair.toDf (p : UserPair U I) (X : Csr ℝ) : Except Err (List (U × I × ℝ)) :=
  match p.itemIds with
  | none => .error .runtimeError
  | some ids =>
    let entries := (X.rows.mapIdx (fun u row => (row.insertionSort (fun a b => a.1 ≤ b.1)).map
      (fun q => (u, q.1, q.2)))).flatten
    let nz := entries.filter (fun t => decide (t.2.2 ≠ 0))
    if nz.length ≠ entries.length then .error .valueError
    else .ok (nz.filterMap (fun t =>
      (p.userIds[t.1]?).bind (fun u => (ids[t.2.1]?).map (fun i => (u, i, t.2.2)))))

/-- `concat` (userwise.py:108-125).  The result has no item ids. -/
def UserPair.concat (p q : UserPair U I) : Except Err (UserPair U I) :=
  if p.xTrain.nCols ≠ q.xTrain.nCols then .error .valueError
  else UserPair.make (p.userIds ++ q.userIds) ⟨p.xTrain.nCols, p.xTrain.rows ++ q.xTrain.rows⟩
    (some ⟨p.xTest.nCols, p.xTest.rows ++ q.xTest.rows⟩) none

/-! ## User-wise splits -/

/-- The source of randomness and of unspecified orders.  `shuffle k` is the `k`-th call of
`rns.shuffle`; `rowShuffle k r n` the order `std::shuffle` gives to the `n` entries of row `r` in the
`k`-th random split; `setOrderU`, `setOrderI` the iteration order of a Python `set`. -/
structure Oracle (U I T : Type) where
  shuffle : Nat → List U → List U
  rowShuffle : Nat → Nat → Nat → List Nat
  setOrderU : List U → List U
  setOrderI : List I → List I
  sortValues : List (Row U I T) → List (Row U I T)

/-- `ids[t:], ids[:t]` with Python's meaning of a negative `t`. -/
def pySplit {A : Type} (l : List A) (t : Int) : List A × List A :=
  let k := if t ≥ 0 then t.toNat else l.length - (-t).toNat
  (l.drop k, l.take k)

/-- `_split_list` (userwise.py:13-17), after the shuffle. -/
def splitList (shuffle : List U → List U) (ids : List U) (testSize : Int) : List U × List U :=
  pySplit (shuffle ids) testSize

/-- `split_train_test_userwise_random` (userwise.py:123-178). -/
noncomputable def userwiseRandom (fl : ℝ → ℝ) (rowShuffle : Nat → Nat → List Nat) (df : List (Row U I T))
    (itemIds : List I) (heldoutRatio : ℝ) (nHeldout : Option Int) (useRating ceil : Bool) :
    Except Err (UserPair U I) :=
  match dfToSparse df none (some itemIds) useRating with
  | .error e => .error e
  | .ok (X, us, _) =>
    match rowwiseSplit fl X heldoutRatio nHeldout ceil
        (fun r => rowShuffle r (X.rows.getD r []).length) with
    | .error e => .error e
    | .ok (a, b) => UserPair.make us a (some b) (some itemIds)

/-- `split_train_test_userwise_time` (userwise.py:181-218).  Only the user, item and time columns are
passed on, so a rating column raises `KeyError`. -/
noncomputable def userwiseTime (fl : ℝ → ℝ) (o : Oracle U I T) (df : List (Row U I T))
    (itemIds : List I) (heldoutRatio : ℝ) (nHeldout : Option Int) (useRating ceil : Bool) :
    Except Err (UserPair U I) :=
  let us := o.setOrderU (df.map Row.user).dedup
  let s := splitLastN fl o.sortValues df nHeldout heldoutRatio ceil
  if useRating then .error .keyError
  else
    match dfToSparse s.1 (some us) (some itemIds) false with
    | .error e => .error e
    | .ok (a, _, _) =>
      match dfToSparse s.2 (some us) (some itemIds) false with
      | .error e => .error e
      | .ok (b, _, _) => UserPair.make us a (some b) (some itemIds)

/-- `df.drop_duplicates([user, item])`: the first row of each pair stays. -/
def dropDuplicates : List (Row U I T) → List (Row U I T)
  | [] => []
  | r :: rs => r :: (dropDuplicates rs).filter (fun q => decide (¬ (q.user = r.user ∧ q.item = r.item)))

/-- Parameters of `split_dataframe_partial_user_holdout` (userwise.py:221-237). -/
structure HoldoutParams where
  timeBased : Bool
  useRating : Bool
  nValUser : Option Int
  nTestUser : Option Int
  valUserRatio : ℝ
  testUserRatio : ℝ
  heldoutRatioVal : ℝ
  nHeldoutVal : Option Int
  heldoutRatioTest : ℝ
  nHeldoutTest : Option Int
  ceil : Bool

open Classical in
/-- The numbers of validation and test users and the (possibly replaced) test ratio
(userwise.py:296-315). -/
noncomputable def holdoutSizes (fl : ℝ → ℝ) (p : HoldoutParams) (nAll : Nat) :
    Except Err (Int × Int × ℝ) :=
  if ¬ (p.testUserRatio ≤ 1 ∧ p.testUserRatio ≥ 0) then .error .assertionError
  else if ¬ (p.valUserRatio ≤ 1 ∧ p.valUserRatio ≥ 0) then .error .assertionError
  else
    match p.nValUser, p.nTestUser with
    | none, none =>
      if nAll = 0 then .error .zeroDivisionError
      else .ok (truncZ (fl (nAll * p.valUserRatio)), truncZ (fl (nAll * p.testUserRatio)),
        fl ((truncZ (fl (nAll * p.testUserRatio)) : ℝ) / nAll))
    | none, some t =>
      if nAll = 0 then .error .zeroDivisionError
      else if t + truncZ (fl (nAll * p.valUserRatio)) > nAll then .error .valueError
      else .ok (truncZ (fl (nAll * p.valUserRatio)), t, p.testUserRatio)
    | some v, none =>
      if v > nAll then .error .valueError
      else if nAll = 0 then .error .zeroDivisionError
      else .ok (v, truncZ (fl (nAll * p.testUserRatio)),
        fl ((truncZ (fl (nAll * p.testUserRatio)) : ℝ) / nAll))
    | some v, some t =>
      if v > nAll then .error .valueError
      else if t + v > nAll then .error .valueError
      else .ok (v, t, p.testUserRatio)

open Classical in
/-- The user ids of the three sets: (train, val, test) (userwise.py:320-331). -/
noncomputable def holdoutUsers (fl : ℝ → ℝ) (o : Oracle U I T) (uids : List U) (nVal nTest : Int)
    (testUserRatio : ℝ) : List U × List U × List U :=
  let s := splitList (o.shuffle 0) uids (nVal + nTest)
  if fl (testUserRatio * uids.length) ≥ 1 then
    let s' := splitList (o.shuffle 1) s.2 nTest
    (s.1, s'.1, s'.2)
  else (s.1, s.2, [])

/-- The val/test datasets (userwise.py:344-369). -/
noncomputable def userwise (fl : ℝ → ℝ) (o : Oracle U I T) (p : HoldoutParams) (k : Nat)
    (df : List (Row U I T)) (items : List I) (ratio : ℝ) (n : Option Int) : Except Err (UserPair U I) :=
  if p.timeBased then userwiseTime fl o df items ratio n p.useRating p.ceil
  else userwiseRandom fl (o.rowShuffle k) df items ratio n p.useRating p.ceil

/-- The three datasets and the item ids. -/
structure Holdout (U I : Type) where
  train : UserPair U I
  val : UserPair U I
  test : UserPair U I
  items : List I

/-- `split_dataframe_partial_user_holdout` (userwise.py:221-370).  The train dataset is built without
the rating column. -/
noncomputable def partialUserHoldout (fl : ℝ → ℝ) (o : Oracle U I T) (p : HoldoutParams)
    (df : List (Row U I T)) : Except Err (Holdout U I) :=
  let uids := (df.map Row.user).dedup
  match holdoutSizes fl p uids.length with
  | .error e => .error e
  | .ok (nVal, nTest, ratio) =>
    let df' := dropDuplicates df
    let s := holdoutUsers fl o uids nVal nTest ratio
    let sel := fun (ids : List U) => df'.filter (fun r => decide (r.user ∈ ids))
    let items := o.setOrderI (df'.map Row.item).dedup
    match dfToSparse (sel s.1) (some s.1) (some items) false with
    | .error e => .error e
    | .ok (X, _, _) =>
      match UserPair.make s.1 X none (none : Option (List I)) with
      | .error e => .error e
      | .ok tr =>
        match userwise fl o p 0 (sel s.2.1) items p.heldoutRatioVal p.nHeldoutVal with
        | .error e => .error e
        | .ok va =>
          match userwise fl o p 1 (sel s.2.2) items p.heldoutRatioTest p.nHeldoutTest with
          | .error e => .error e
          | .ok te => .ok ⟨tr, va, te, items⟩

/-! ## holdout_specific_interactions -/

open Classical in
/-- The three groups of validatable users: (train, val, test) (specified.py:61-102).  `fl` rounds each
operation; Python raises `ZeroDivisionError` for `val_test_ratio == 0`. -/
noncomputable def specificUsers (fl : ℝ → ℝ) (o : Oracle U I T) (users : List U) (ratioVal ratioTest : ℝ) :
    Except Err (List U × List U × List U) :=
  let vTrain := fl (fl (1 - ratioVal) - ratioTest)
  if vTrain < -1e-10 then .error .valueError
  else
    let valTest := fl (1 - vTrain)
    let s := if valTest ≥ 1 then (users, [])
      else splitList (o.shuffle 0) users (truncZ (fl (vTrain * users.length)))
    if valTest = 0 then .error .zeroDivisionError
    else
      let s' := splitList (o.shuffle 1) s.1 (truncZ (fl (fl (s.1.length * ratioVal) / valTest)))
      .ok (s.2, s'.2, s'.1)

/-- `df_to_dataset` (specified.py:112-141) on rows with a flag. -/
def specificDataset (df : List (Row U I T × Bool)) (items : List I) (train : Bool) :
    Except Err (UserPair U I) :=
  let us := (df.map (fun r => r.1.user)).dedup.insertionSort (· ≤ ·)
  let mk := fun (l : List (Row U I T × Bool)) => cooToCsr us.length items.length
    (l.map (fun r => (us.idxOf r.1.user, items.idxOf r.1.item, 1)))
  if train then UserPair.make us (mk df) none none
  else UserPair.make us (mk (df.filter (fun r => !r.2))) (some (mk (df.filter (fun r => r.2)))) none

/-- `holdout_specific_interactions` (specified.py:13-148).  `df` carries the flag column. -/
noncomputable def holdoutSpecific (fl : ℝ → ℝ) (o : Oracle U I T) (df : List (Row U I T × Bool))
    (ratioVal ratioTest : ℝ) : Except Err (Holdout U I) :=
  let items := (df.map (fun r => r.1.item)).dedup.insertionSort (· ≤ ·)
  let validatable := ((df.filter (fun r => r.2)).map (fun r => r.1.user)).dedup.insertionSort (· ≤ ·)
  match specificUsers fl o validatable ratioVal ratioTest with
  | .error e => .error e
  | .ok (tr, va, te) =>
    let sel := fun (ids : List U) => df.filter (fun r => decide (r.1.user ∈ ids))
    let dfTrain := sel tr ++ df.filter (fun r => !decide (r.1.user ∈ validatable))
    match specificDataset dfTrain items true with
    | .error e => .error e
    | .ok a =>
      match specificDataset (sel va) items false with
      | .error e => .error e
      | .ok b =>
        match specificDataset (sel te) items false with
        | .error e => .error e
        | .ok c => .ok ⟨a, b, c, items⟩

end frames

end Irspack.Split
