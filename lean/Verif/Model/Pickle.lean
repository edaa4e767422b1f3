import Verif.Model.Named

/-!
# Objects across calls and pickling

`EvaluatorCore` (/repo/cpp_source/evaluator.cpp) as an object with its cache of ground-truth sets, and the
pickling of evaluators and of the Mult-VAE trainer (/repo/src/irspack/recommenders/multvae.py).
-/

namespace Irspack.Evaluation

open Irspack

/-! ## The evaluator core -/

/-- An `EvaluatorCore` object (evaluator.cpp:369-373): what it was built from and `X_as_set`, `none` as
long as that vector is empty. -/
structure CoreObj where
  core : Core
  cache : Option (Nat → Finset Nat)

/-- A fresh object (evaluator.cpp:183-206). -/
def CoreObj.make (gtRows : List (List Nat)) (nItems : Nat) (recommendable : List (List Nat)) :
    Except Err CoreObj :=
  match Core.make gtRows nItems recommendable with
  | .error e => .error e
  | .ok c => .ok ⟨c, none⟩

/-- `cache_X_map` (evaluator.cpp:208-254), which returns at once if there is a cache.  For a ground truth
without rows the vector stays empty and the region, which does nothing, is run again each time. -/
def CoreObj.cacheXMap (o : CoreObj) (nThreads : Nat) (sched : List (Fin nThreads)) : Except Err CoreObj :=
  if ¬ nThreads > 0 then .error .invalidArgument
  else
    match o.cache with
    | some _ => .ok o
    | none =>
      match o.core.cacheRegion nThreads sched with
      | .error e => .error e
      | .ok s => .ok { o with cache := some s.mem }

section scores
variable {S : Type} [LinearOrder S] [OrderBot S]

/-- The loop body of `get_metrics_local` (evaluator.cpp:312-364), reading the ground truth from the cache. -/
noncomputable def Core.evalRowCached (c : Core) (X : Nat → Finset Nat) (rows : List (ScoreRow S))
    (cutoff offset : Nat) (recallWithCutoff : Bool) (u : Nat) (m : Metrics) : Metrics :=
  let gt := X (u + offset)
  let m := m.incrementTotalUser
  if gt = ∅ then m
  else m.update (topCutoff c.nItems (c.recommendableFor (u + offset)) cutoff
    (rows.getD u (fun _ => ⊥))) gt recallWithCutoff

/-- `get_metrics` as a method of the object (evaluator.cpp:256-284): fills the cache if there is none
(interleaved by `fill`), checks the arguments, evaluates (interleaved by `sched`).  The object keeps the
cache also when a later check fails.  `X_as_set.at(u)` is inside the vector once the checks have passed. -/
noncomputable def CoreObj.getMetrics (o : CoreObj) (rows : List (ScoreRow S))
    (cutoff offset nThreads : Nat) (recallWithCutoff : Bool) (fill sched : List (Fin nThreads)) :
    CoreObj × Region nThreads Metrics Unit :=
  match o.cacheXMap nThreads fill with
  | .error e => (o, .error e)
  | .ok o' =>
    (o', match o'.core.checkArgs rows.length cutoff offset nThreads with
      | .error e => .error e
      | .ok () => .ok (WorkQueue.run rows.length 1
          (fun u l m => (o'.core.evalRowCached (o'.cache.getD (fun _ => ∅)) rows cutoff offset
            recallWithCutoff u l, m))
          (WorkQueue.init Metrics.empty ()) sched))

end scores

/-- `__getstate__` (evaluator.cpp:467-471): ground truth (with its shape) and recommendable items. -/
def CoreObj.getstate (o : CoreObj) : (List (List Nat) × Nat) × List (List Nat) :=
  ((o.core.gtRows, o.core.nItems), o.core.recommendable)

/-- `__setstate__` (evaluator.cpp:472-478): the constructor on the two components -/
def CoreObj.setstate (s : (List (List Nat) × Nat) × List (List Nat)) : Except Err CoreObj :=
  CoreObj.make s.1.1 s.1.2 s.2

/-- Pickling and unpickling an `Evaluator` (evaluator.py:135-161): Python copies the attributes; the core
goes through its own two methods. -/
def Evaluator.pickled (ev : Evaluator) : Except Err Evaluator :=
  match CoreObj.setstate (CoreObj.getstate ⟨ev.core, none⟩) with
  | .error e => .error e
  | .ok o => .ok { ev with core := o.core }

end Irspack.Evaluation

/-! ## The Mult-VAE trainer -/

namespace Irspack.MultVAE.Pickle

open Irspack Irspack.Evaluation.Named

/-- What an attribute of the trainer holds: data, or one of the three objects made of closures by
`_setup_jax_funcs` (multvae.py:176-222).  `vae_f` and `update_function` read the other attributes when they
are called; `optimizer` is made for one learning rate. -/
inductive Attr (D : Type) where
  | data (d : D)
  | vaeF
  | optimizer (learningRate : D)
  | updateFunction
  deriving DecidableEq

variable {D : Type}

/-- the attributes of a trainer: its `__dict__` -/
abbrev Obj (D : Type) := Dict (Attr D)

/-- `_setup_jax_funcs` (multvae.py:176-222) -/
def setupJaxFuncs (o : Obj D) : Except Err (Obj D) :=
  match o.lookup "learning_rate".toList with
  | some (.data lr) =>
    .ok (((o.set "optimizer".toList (.optimizer lr)).set "vae_f".toList .vaeF).set
      "update_function".toList .updateFunction)
  | _ => .error .attributeError

/-- the attributes set before `_setup_jax_funcs` (multvae.py:142-161), with the values they get -/
def before (X nUsers nItems size goal annealEnd dropout l2 lr rng enc dec z total : D) : Obj D :=
  [("X".toList, .data X), ("n_users".toList, .data nUsers), ("n_items".toList, .data nItems),
    ("minibatch_size".toList, .data size), ("kl_anneal_goal".toList, .data goal),
    ("anneal_end_epoch".toList, .data annealEnd), ("dropout_p".toList, .data dropout),
    ("l2_regularizer".toList, .data l2), ("learning_rate".toList, .data lr), ("rng_seq".toList, .data rng),
    ("enc_hidden_dim".toList, .data enc), ("dec_hidden_dim".toList, .data dec), ("dim_z".toList, .data z),
    ("total_anneal_step".toList, .data total)]

/-- what follows `_setup_jax_funcs` in the constructor (multvae.py:164-174) -/
def after (count rng params opt : D) (o : Obj D) : Obj D :=
  (((o.set "_update_count".toList (.data count)).set "rng_seq".toList (.data rng)).set
    "params".toList (.data params)).set "opt_state".toList (.data opt)

/-- one update in `run_epoch` (multvae.py:253-261); `next(self.rng_seq)` changes the generator -/
def updated (count rng params opt : D) (o : Obj D) : Obj D :=
  (((o.set "rng_seq".toList (.data rng)).set "params".toList (.data params)).set
    "opt_state".toList (.data opt)).set "_update_count".toList (.data count)

/-- `get_score_cold_user` takes keys from the generator (multvae.py:224-238) -/
def scored (rng : D) (o : Obj D) : Obj D := o.set "rng_seq".toList (.data rng)

/-- `load_state` (multvae.py:266-267) -/
def loaded (params : D) (o : Obj D) : Obj D := o.set "params".toList (.data params)

/-- `dict.pop(k, None)` -/
def pop (o : Obj D) (k : List Char) : Obj D := o.filter (fun e => decide (e.1 ≠ k))

/-- `__getstate__` (multvae.py:269-274): `pop("optimizer")` raises `KeyError` if there is none -/
def getstate (o : Obj D) : Except Err (Obj D) :=
  let s := pop (pop o "update_function".toList) "vae_f".toList
  match s.lookup "optimizer".toList with
  | none => .error .keyError
  | some _ => .ok (pop s "optimizer".toList)

/-- `pickle.dumps`: closures cannot be pickled -/
def dumps (o : Obj D) : Except Err (List (List Char × D)) :=
  match getstate o with
  | .error e => .error e
  | .ok s => s.mapM (fun e => match e.2 with | .data d => .ok (e.1, d) | _ => .error .attributeError)

/-- `pickle.loads` with `__setstate__` (multvae.py:276-278): a new object takes over the entries and makes
the closures again. -/
def loads (b : List (List Char × D)) : Except Err (Obj D) :=
  setupJaxFuncs (b.foldl (fun (o : Obj D) e => o.set e.1 (.data e.2)) [])

end Irspack.MultVAE.Pickle
