import Verif.Model.Split
import Verif.Model.SampleData
import Verif.Model.MultVAE

/-!
# Random states as objects in memory (/repo/src/irspack/utils/random.py and its callers)

`Model/Split.lean` and `Model/SampleData.lean` take random choices as arguments.  Here the choices come
from `np.random.RandomState` objects, which live in memory next to numpy's global generator, are advanced
by every draw, and are created by `convert_randomstate`.  The algorithms behind the draws (Mersenne
Twister and the distributions of numpy and of the C++ library) are functions of the generator's state.
-/

namespace Irspack.RandomState

open Irspack Irspack.Split

/-- What the random libraries do.  `G` is the state of a `RandomState`, `M` that of a `std::mt19937`.
`ofSeed` is `none` for an integer that numpy refuses; `shuffle g n` is the order `rns.shuffle` gives to
the positions `0 … n-1`; `randint` is the draw of utils/__init__.py:55; `randn`, `binomial` those of
sample_data.py:16-17, 34; `mtShuffle m n` the order `std::shuffle` gives to `0 … n-1` (util.hpp:96). -/
structure Random (G M : Type) where
  ofSeed : Int → Option G
  ofEntropy : Nat → G
  shuffle : G → Nat → List Nat × G
  randint : G → Int × G
  randn : G → Nat → Nat → (Nat → Nat → ℝ) × G
  binomial : G → Nat → Nat → (Nat → Nat → ℝ) → (Nat → Nat → Bool) × G
  mtOfSeed : Int → M
  mtShuffle : M → Nat → List Nat × M

/-- Everything random in the process: numpy's global generator, the `RandomState` objects, and how often
the operating system was asked for entropy. -/
structure World (G : Type) where
  global : G
  objs : List G
  entropy : Nat

/-- A value of `random_state` (definitions.py:14): `None`, an `int`, a `RandomState` object, or anything
else. -/
inductive Arg where
  | none
  | int (seed : Int)
  | gen (id : Nat)
  | other
deriving DecidableEq

/-- A Python computation: it may raise, and what it did to the world stays done. -/
abbrev Act (G A : Type) := World G → Except Err A × World G

namespace Act

def pure (a : A) : Act G A := fun w => (.ok a, w)

/-- A computation that draws nothing. -/
def lift (x : Except Err A) : Act G A := fun w => (x, w)

def bind (m : Act G A) (k : A → Act G B) : Act G B := fun w =>
  let out := m w
  match out.1 with
  | .ok a => k a out.2
  | .error e => (.error e, out.2)

end Act

/-- A method of object `id` that draws by `f`. -/
def draw (id : Nat) (f : G → A × G) : Act G A := fun w =>
  match w.objs[id]? with
  | some g => (.ok (f g).1, { w with objs := w.objs.set id (f g).2 })
  | none => (.error .notModelled, w)

/-- `convert_randomstate` (random.py:6-12): the object to use, a new one for `None` and `int`.  (An
object that does not exist cannot be passed.) -/
def convert (np : Random G M) (arg : Arg) : Act G Nat := fun w =>
  match arg with
  | .none => (.ok w.objs.length,
      { w with objs := w.objs ++ [np.ofEntropy w.entropy], entropy := w.entropy + 1 })
  | .int s =>
    match np.ofSeed s with
    | some g => (.ok w.objs.length, { w with objs := w.objs ++ [g] })
    | none => (.error .valueError, w)
  | .gen id => if id < w.objs.length then (.ok id, w) else (.error .notModelled, w)
  | .other => (.error .valueError, w)

/-- The list in a new order of its positions. -/
def permute (perm : List Nat) (l : List A) : List A := perm.filterMap (fun k => l[k]?)

/-- The orders of all rows, drawn one after the other from one generator (util.hpp:80-96). -/
def rowOrders (np : Random G M) : M → List Nat → List (List Nat)
  | _, [] => []
  | m, n :: ns => (np.mtShuffle m n).1 :: rowOrders np (np.mtShuffle m n).2 ns

/-- The order of row `r` of a matrix, for the seed given to the C++ code. -/
def rowOrder (np : Random G M) (seed : Int) (X : Csr ℝ) (r : Nat) : List Nat :=
  (rowOrders np (np.mtOfSeed seed) (X.rows.map List.length)).getD r []

/-- `rowwise_train_test_split` (utils/__init__.py:28-69) on an existing generator: one integer is drawn
before the C++ code checks its arguments. -/
noncomputable def rowwiseWith (np : Random G M) (fl : ℝ → ℝ) (X : Csr ℝ) (testRatio : ℝ)
    (nTest : Option Int) (ceil : Bool) (id : Nat) : Act G (Csr ℝ × Csr ℝ) :=
  (draw id np.randint).bind fun seed =>
    .lift (rowwiseSplit fl X testRatio nTest ceil (rowOrder np seed X))

section frames
variable {U I T : Type} [LinearOrder U] [LinearOrder I] [LinearOrder T]

/-- The orders that are not random: iteration over a Python `set` and the order of equal keys in
`sort_values`. -/
structure Orders (U I T : Type) where
  setOrderU : List U → List U
  setOrderI : List I → List I
  sortValues : List (Row U I T) → List (Row U I T)

/-- An oracle of `Model/Split.lean` for code that shuffles nothing. -/
def Orders.oracle (e : Orders U I T) : Oracle U I T where
  shuffle := fun _ l => l
  rowShuffle := fun _ _ n => List.range n
  setOrderU := e.setOrderU
  setOrderI := e.setOrderI
  sortValues := e.sortValues

/-- `_split_list` (userwise.py:13-17).  For the numpy array of userwise.py:320-325 the results are
disjoint views of the array, so that shuffling one later does not change the other. -/
def splitListWith (np : Random G M) (ids : List U) (testSize : Int) (id : Nat) : Act G (List U × List U) :=
  (draw id (fun g => np.shuffle g ids.length)).bind fun perm => .pure (pySplit (permute perm ids) testSize)

/-- `split_train_test_userwise_random` (userwise.py:123-178). -/
noncomputable def userwiseRandomWith (np : Random G M) (fl : ℝ → ℝ) (df : List (Row U I T))
    (itemIds : List I) (heldoutRatio : ℝ) (nHeldout : Option Int) (useRating ceil : Bool) (id : Nat) :
    Act G (UserPair U I) :=
  (Act.lift (dfToSparse df none (some itemIds) useRating)).bind fun x =>
    (rowwiseWith np fl x.1 heldoutRatio nHeldout ceil id).bind fun s =>
      .lift (UserPair.make x.2.1 s.1 (some s.2) (some itemIds))

/-- One of the val/test datasets (userwise.py:344-369). -/
noncomputable def userwiseWith (np : Random G M) (fl : ℝ → ℝ) (e : Orders U I T) (p : HoldoutParams)
    (df : List (Row U I T)) (items : List I) (ratio : ℝ) (n : Option Int) (id : Nat) :
    Act G (UserPair U I) :=
  if p.timeBased then .lift (userwiseTime fl e.oracle df items ratio n p.useRating p.ceil)
  else userwiseRandomWith np fl df items ratio n p.useRating p.ceil id

open Classical in
/-- The user ids of the three sets (userwise.py:320-331). -/
noncomputable def holdoutUsersWith (np : Random G M) (fl : ℝ → ℝ) (uids : List U) (nVal nTest : Int)
    (testUserRatio : ℝ) (id : Nat) : Act G (List U × List U × List U) :=
  (splitListWith np uids (nVal + nTest) id).bind fun s =>
    if fl (testUserRatio * uids.length) ≥ 1 then
      (splitListWith np s.2 nTest id).bind fun s' => .pure (s.1, s'.1, s'.2)
    else .pure (s.1, s.2, [])

/-- The part of `split_dataframe_partial_user_holdout` after `convert_randomstate`
(userwise.py:318-370). -/
noncomputable def holdoutWith (np : Random G M) (fl : ℝ → ℝ) (e : Orders U I T) (p : HoldoutParams)
    (df : List (Row U I T)) (nVal nTest : Int) (ratio : ℝ) (id : Nat) : Act G (Holdout U I) :=
  let df' := dropDuplicates df
  let sel := fun (ids : List U) => df'.filter (fun r => decide (r.user ∈ ids))
  let items := e.setOrderI (df'.map Row.item).dedup
  (holdoutUsersWith np fl (df.map Row.user).dedup nVal nTest ratio id).bind fun s =>
    (Act.lift (dfToSparse (sel s.1) (some s.1) (some items) false)).bind fun x =>
      (Act.lift (UserPair.make s.1 x.1 none (none : Option (List I)))).bind fun tr =>
        (userwiseWith np fl e p (sel s.2.1) items p.heldoutRatioVal p.nHeldoutVal id).bind fun va =>
          (userwiseWith np fl e p (sel s.2.2) items p.heldoutRatioTest p.nHeldoutTest id).bind fun te =>
            .pure ⟨tr, va, te, items⟩

/-- `split_dataframe_partial_user_holdout` (userwise.py:221-370): the sizes are checked before the
random state is looked at. -/
noncomputable def partialUserHoldoutSeeded (np : Random G M) (fl : ℝ → ℝ) (e : Orders U I T)
    (p : HoldoutParams) (df : List (Row U I T)) (arg : Arg) : Act G (Holdout U I) :=
  (Act.lift (holdoutSizes fl p (df.map Row.user).dedup.length)).bind fun sizes =>
    (convert np arg).bind (holdoutWith np fl e p df sizes.1 sizes.2.1 sizes.2.2)

open Classical in
/-- The three groups of validatable users (specified.py:88-102), after the check of the ratios. -/
noncomputable def specificUsersWith (np : Random G M) (fl : ℝ → ℝ) (users : List U) (vTrain ratioVal : ℝ)
    (id : Nat) : Act G (List U × List U × List U) :=
  let valTest := fl (1 - vTrain)
  (if valTest ≥ 1 then Act.pure (users, [])
    else splitListWith np users (truncZ (fl (vTrain * users.length))) id).bind fun s =>
    if valTest = 0 then .lift (.error .zeroDivisionError)
    else
      (splitListWith np s.1 (truncZ (fl (fl (s.1.length * ratioVal) / valTest))) id).bind fun s' =>
        .pure (s.2, s'.2, s'.1)

/-- `df_train`, `df_val`, `df_test` and the datasets made of them (specified.py:103-148). -/
def specificDatasets (df : List (Row U I T × Bool)) (s : List U × List U × List U) :
    Except Err (Holdout U I) :=
  let items := (df.map (fun r => r.1.item)).dedup.insertionSort (· ≤ ·)
  let validatable := ((df.filter (fun r => r.2)).map (fun r => r.1.user)).dedup.insertionSort (· ≤ ·)
  let sel := fun (ids : List U) => df.filter (fun r => decide (r.1.user ∈ ids))
  let dfTrain := sel s.1 ++ df.filter (fun r => !decide (r.1.user ∈ validatable))
  match specificDataset dfTrain items true with
  | .error e => .error e
  | .ok a =>
    match specificDataset (sel s.2.1) items false with
    | .error e => .error e
    | .ok b =>
      match specificDataset (sel s.2.2) items false with
      | .error e => .error e
      | .ok c => .ok ⟨a, b, c, items⟩

open Classical in
/-- `holdout_specific_interactions` (specified.py:13-148). -/
noncomputable def holdoutSpecificSeeded (np : Random G M) (fl : ℝ → ℝ) (df : List (Row U I T × Bool))
    (ratioVal ratioTest : ℝ) (arg : Arg) : Act G (Holdout U I) :=
  let validatable := ((df.filter (fun r => r.2)).map (fun r => r.1.user)).dedup.insertionSort (· ≤ ·)
  let vTrain := fl (fl (1 - ratioVal) - ratioTest)
  if vTrain < -1e-10 then .lift (.error .valueError)
  else
    (convert np arg).bind fun id =>
      (specificUsersWith np fl validatable vTrain ratioVal id).bind fun s => .lift (specificDatasets df s)

/-- `rowwise_train_test_split` (utils/__init__.py:28-69). -/
noncomputable def rowwiseSeeded (np : Random G M) (fl : ℝ → ℝ) (X : Csr ℝ) (testRatio : ℝ)
    (nTest : Option Int) (ceil : Bool) (arg : Arg) : Act G (Csr ℝ × Csr ℝ) :=
  (convert np arg).bind (rowwiseWith np fl X testRatio nTest ceil)

/-- `mf_example_data` (sample_data.py:8-34). -/
noncomputable def sampleSeeded (np : Random G M) (nUsers nItems nComp : Nat) (target : ℝ) (arg : Arg) :
    Act G (List (List Bool)) :=
  (convert np arg).bind fun id =>
    (draw id (fun g => np.randn g nUsers nComp)).bind fun gu =>
      (draw id (fun g => np.randn g nItems nComp)).bind fun gi =>
        (draw id (fun g => np.binomial g nUsers nItems
          (SampleData.probability nUsers nItems nComp gu gi target))).bind fun b =>
          .pure (SampleData.mfExampleData nUsers nItems nComp gu gi target (fun u i _ => b u i))

/-- A call of one of the functions with a `random_state` argument. -/
inductive Request (U I T : Type) where
  | rowwise (X : Csr ℝ) (testRatio : ℝ) (nTest : Option Int) (ceil : Bool)
  | holdout (p : HoldoutParams) (df : List (Row U I T))
  | specific (df : List (Row U I T × Bool)) (ratioVal ratioTest : ℝ)
  | sample (nUsers nItems nComp : Nat) (target : ℝ)

/-- What it returns. -/
inductive Result (U I : Type) where
  | pair (train test : Csr ℝ)
  | datasets (H : Holdout U I)
  | matrix (X : List (List Bool))

/-- The call with a `random_state`. -/
noncomputable def run (np : Random G M) (fl : ℝ → ℝ) (e : Orders U I T) (req : Request U I T) (arg : Arg) :
    Act G (Result U I) :=
  match req with
  | .rowwise X r n c => (rowwiseSeeded np fl X r n c arg).bind fun s => .pure (.pair s.1 s.2)
  | .holdout p df => (partialUserHoldoutSeeded np fl e p df arg).bind fun H => .pure (.datasets H)
  | .specific df v t => (holdoutSpecificSeeded np fl df v t arg).bind fun H => .pure (.datasets H)
  | .sample nU nI nC t => (sampleSeeded np nU nI nC t arg).bind fun X => .pure (.matrix X)

end frames

/-- `MultVAETrainer.run_epoch` (multvae.py:240-261): the user indices are shuffled by `np.random.shuffle`,
that is by the global generator. -/
noncomputable def multVaeEpoch {G M O : Type} (np : Random G M) (cfg : MultVAE.Config) (X : CSR ℝ)
    (upd : MultVAE.Params → Nat → O → List (Nat → ℝ) → ℝ → MultVAE.Params × O) (s : MultVAE.State O) :
    Act G (MultVAE.State O) := fun w =>
  let sh := np.shuffle w.global X.nrows
  (MultVAE.runEpoch cfg X upd (permute sh.1 (List.range X.nrows)) s, { w with global := sh.2 })

end Irspack.RandomState
