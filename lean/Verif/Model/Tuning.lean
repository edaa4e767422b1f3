import Mathlib.Algebra.Field.Basic
import Verif.Model.ParamRange

/-!
# Hyperparameter tuning
(/repo/src/irspack/optimization/optimizer.py, /repo/src/irspack/recommenders/base.py:165-282,
/repo/src/irspack/recommenders/ials.py:637-756)

External parts are arbitrary functions: optuna's samplers (`sample`), and the construction, training and
evaluation of a recommender (`fit`).  Optuna's `Study` is modelled by what its documentation promises: the
trials in order, `best_trial` the first completed trial with the least value.
-/

namespace Irspack.Tuning

/-! ## Dictionaries -/

/-- A Python `dict` with string keys, in insertion order. -/
abbrev Dict (V : Type) := List (List Char × V)

namespace Dict
variable {V : Type}

/-- `d.get(k)` -/
def get? (d : Dict V) (k : List Char) : Option V := (d.find? (fun e => e.1 = k)).map (·.2)

/-- `d[k] = v` -/
def set (d : Dict V) (k : List Char) (v : V) : Dict V :=
  if d.any (fun e => e.1 = k) then d.map (fun e => if e.1 = k then (k, v) else e) else d ++ [(k, v)]

/-- `d.update(e)` -/
def update (d e : Dict V) : Dict V := e.foldl (fun d kv => d.set kv.1 kv.2) d

/-- `k in d` -/
def has (d : Dict V) (k : List Char) : Bool := d.any (fun e => e.1 = k)

end Dict

/-! ## Trials -/

variable {K V Data : Type}

/-- A function of a trial: it may ask the trial for values (`trial.suggest_…`), raise, or return. -/
inductive Prog (K V A : Type) where
  | ret (a : A)
  | raise (e : Err)
  | ask (name : List Char) (req : Request K V) (k : V → Prog K V A)

/-- Running a function of a trial.  A name that was already suggested in this trial keeps its value;
otherwise the sampler is asked (which raises for requests it does not accept) and the value is recorded in
`trial.params`. -/
def Prog.run (sample : List Char → Request K V → Except Err V) :
    Prog K V A → Dict V → Dict V × Except Err A
  | .ret a, params => (params, .ok a)
  | .raise e, params => (params, .error e)
  | .ask name req k, params =>
    match params.get? name with
    | some v => (k v).run sample params
    | none =>
      match sample name req with
      | .error e => (params, .error e)
      | .ok v => (k v).run sample (params ++ [(name, v)])

/-- `default_suggest_parameter` (base.py:165-173): a dictionary comprehension over the default ranges whose
name is not among the fixed parameters.  `acc` is the dictionary so far. -/
def defaultSuggest (fixed : Dict V) : List (ParameterRange K V) → Dict V → Prog K V (Dict V)
  | [], acc => .ret acc
  | r :: rs, acc =>
    if fixed.has r.name then defaultSuggest fixed rs acc
    else .ask r.name r.request (fun v => defaultSuggest fixed rs (acc.set r.name v))

/-- What construction, `learn_with_optimizer` and `evaluator.get_score` do: raise (`TrialPruned` among the
exceptions) with the value last reported to the trial, if any; or leave `learnt_config` and the scores by
metric name; `none` is NaN. -/
inductive FitResult (K V : Type) where
  | raised (e : Err) (reported : Option K)
  | done (learnt : Dict V) (score : Dict (Option K))

/-- How a trial ended.  Optuna gives a pruned trial the last intermediate value as its value. -/
inductive Outcome (K : Type) where
  | complete (value : K)
  | pruned (reported : Option K)
  | failed
  deriving DecidableEq

/-- A finished trial (`optuna.trial.FrozenTrial`).  `passed` is not part of optuna: it records the data and
the keyword arguments with which the recommender was constructed, if the trial came that far. -/
structure Frozen (K V Data : Type) where
  number : Nat
  outcome : Outcome K
  params : Dict V
  attrs : Dict V
  passed : Option (Data × Dict V)

/-- The study: finished trials in order and the user attribute `scores`. -/
structure Study (K V Data : Type) where
  trials : List (Frozen K V Data)
  scores : List (Nat × Dict (Option K))

/-- The arguments of the optimiser. -/
structure Setup (K V Data : Type) where
  dataSuggest : Prog K V Data
  paramSuggest : Prog K V (Dict V)
  fixed : Dict V
  target : List Char
  cutoffSuffix : List Char
  sample : Study K V Data → List Char → Request K V → Except Err V
  fit : Study K V Data → Data → Dict V → FitResult K V

/-- the trial that results when the objective function raises: pruned for `TrialPruned`, failed
otherwise, in which case `study.optimize` raises the exception again -/
def stopped (n : Nat) (params : Dict V) (passed : Option (Data × Dict V)) (s : Study K V Data) (e : Err)
    (reported : Option K) : Study K V Data × Option Err :=
  match e with
  | .trialPruned => ({ s with trials := s.trials ++ [⟨n, .pruned reported, params, [], passed⟩] }, none)
  | e => ({ s with trials := s.trials ++ [⟨n, .failed, params, [], passed⟩] }, some e)

/-- `add_score_to_trial` (optimizer.py:21-34) -/
def addScore (n : Nat) (suffix : List Char) (score : Dict (Option K))
    (scores : List (Nat × Dict (Option K))) : List (Nat × Dict (Option K)) :=
  scores ++ [(n, score.map (fun e => (e.1 ++ suffix, e.2)))]

/-- One trial of `study.optimize(objective_func)` (optimizer.py:120-155): data, then parameters, then the
fixed parameters on top, then training and evaluation; `score[target]` may raise `KeyError`; the attributes
of the trial are `learnt_config`; the value is minus the score.  Optuna records a trial whose value is NaN
as failed and goes on. -/
def runTrial [Neg K] (c : Setup K V Data) (s : Study K V Data) : Study K V Data × Option Err :=
  let n := s.trials.length
  match c.dataSuggest.run (c.sample s) [] with
  | (ps, .error e) => stopped n ps none s e none
  | (ps, .ok data) =>
    match c.paramSuggest.run (c.sample s) ps with
    | (ps, .error e) => stopped n ps none s e none
    | (ps, .ok suggested) =>
      let kwargs := suggested.update c.fixed
      match c.fit s data kwargs with
      | .raised e reported => stopped n ps (some (data, kwargs)) s e reported
      | .done learnt score =>
        match score.get? c.target with
        | none => stopped n ps (some (data, kwargs)) s .keyError none
        | some v =>
          let attrs : Dict V := Dict.update [] learnt
          let outcome := match v with
            | some x => Outcome.complete (-x)
            | none => Outcome.failed
          (⟨s.trials ++ [⟨n, outcome, ps, attrs, some (data, kwargs)⟩],
            addScore n c.cutoffSuffix score s.scores⟩, none)

/-- `study.optimize` with `m` trials; an exception ends it.  (`timeout` can end it after fewer trials than
`n_trials`; the theorems are about every number `m` of trials.) -/
def optimize [Neg K] (c : Setup K V Data) : Nat → Study K V Data → Study K V Data × Option Err
  | 0, s => (s, none)
  | m + 1, s =>
    match runTrial c s with
    | (s', none) => optimize c m s'
    | (s', some e) => (s', some e)

/-- the least completed trial, the first one if there are several: `study.best_trial` for the direction
`minimize` -/
def bestOf [LT K] [DecidableLT K] : List (Frozen K V Data) → Option (Frozen K V Data × K)
  | [] => none
  | t :: ts =>
    match t.outcome with
    | .complete v =>
      match bestOf ts with
      | some (b, w) => if w < v then some (b, w) else some (t, v)
      | none => some (t, v)
    | _ => bestOf ts

open Classical in
/-- `dict(**params, **{key: val for … if is_valid_param_name(key)})` (optimizer.py:194-201); a key that
occurs on both sides raises `TypeError`. -/
noncomputable def mergeBest (U : Chars) (params attrs : Dict V) : Except Err (Dict V) :=
  let valid := attrs.filter (fun e => isValidParamName U e.1)
  if valid.any (fun e => params.has e.1) then .error .typeError else .ok (params ++ valid)

/-- the rows of one trial in the left join of `study_to_dataframe` (optimizer.py:37-54): one row without
scores if none are recorded under its number, else one row for each recorded entry -/
def rowsOf (scores : List (Nat × Dict (Option K))) (t : Frozen K V Data) :
    List (Frozen K V Data × Option (Dict (Option K))) :=
  let own := scores.filter (fun e => e.1 = t.number)
  if own.isEmpty then [(t, none)] else own.map (fun e => (t, some e.2))

/-- `study_to_dataframe` (optimizer.py:37-54): the trials, joined with the recorded scores on the trial
number. -/
def history (s : Study K V Data) : List (Frozen K V Data × Option (Dict (Option K))) :=
  s.trials.flatMap (rowsOf s.scores)

/-- `optimize_with_study` (optimizer.py:159-203) -/
noncomputable def optimizeWithStudy [Neg K] [LT K] [DecidableLT K] (U : Chars) (c : Setup K V Data) (m : Nat)
    (s : Study K V Data) : Except Err (Dict V × Study K V Data) :=
  match optimize c m s with
  | (_, some e) => .error e
  | (s', none) =>
    match bestOf s'.trials with
    | none => .error .valueError
    | some (t, _) => do
      let bp ← mergeBest U t.params t.attrs
      return (bp, s')

/-- `optimize_with_study` (optimizer.py:159-203) on a study the caller created with the direction
`maximize`: `study.best_trial` is then the greatest completed trial. -/
noncomputable def optimizeWithMaximizingStudy [Neg K] [LT K] [DecidableLT K] (U : Chars) (c : Setup K V Data)
    (m : Nat) (s : Study K V Data) : Except Err (Dict V × Study K V Data) :=
  match optimize c m s with
  | (_, some e) => .error e
  | (s', none) =>
    match @bestOf K V Data ⟨fun a b => b < a⟩ (fun a b => inferInstanceAs (Decidable (b < a))) s'.trials with
    | none => .error .valueError
    | some (t, _) => do
      let bp ← mergeBest U t.params t.attrs
      return (bp, s')

/-- `tune` (base.py:175-282): the data or a function giving the data must be provided; the default
suggestion is used unless a function is given.  `setup` holds the remaining arguments. -/
noncomputable def tune [Neg K] [LT K] [DecidableLT K] (U : Chars) (ranges : List (ParameterRange K V))
    (data : Option Data) (dataSuggest : Option (Prog K V Data)) (paramSuggest : Option (Prog K V (Dict V)))
    (setup : Setup K V Data) (m : Nat) (s : Study K V Data) : Except Err (Dict V × Study K V Data) :=
  let ps := paramSuggest.getD (defaultSuggest setup.fixed ranges [])
  match data, dataSuggest with
  | some d, _ => optimizeWithStudy U { setup with dataSuggest := .ret d, paramSuggest := ps } m s
  | none, some f => optimizeWithStudy U { setup with dataSuggest := f, paramSuggest := ps } m s
  | none, none => .error .valueError

/-! ## Doubling the dimension -/

section
variable [Field K] [LinearOrder K]

/-- the suggestion function for the following dimensions (ials.py:717-728): every parameter of the previous
optimum that is a float is searched around its value; `value / neighborhood_scale` raises for the scale
zero. -/
def neighbourhood (asFloat : V → Option K) (scale : K) : Dict V → Dict V → Prog K V (Dict V)
  | [], acc => .ret acc
  | (key, v) :: rest, acc =>
    match asFloat v with
    | none => neighbourhood asFloat scale rest acc
    | some x =>
      if scale = 0 then .raise .zeroDivisionError
      else .ask key (.float (some (x / scale)) (some (x * scale)) true)
        (fun w => neighbourhood asFloat scale rest (acc.set key w))

/-- The arguments of `tune_doubling_dimension` that matter here; the study for each dimension has its own
sampler. -/
structure Doubling (K V Data : Type) where
  ranges : List (ParameterRange K V)
  data : Data
  initialSuggest : Option (Prog K V (Dict V))
  trialsInitial : Nat
  trialsFollowing : Nat
  scale : K
  asFloat : V → Option K
  int : Nat → V
  target : List Char
  cutoffSuffix : List Char
  sample : Nat → Study K V Data → List Char → Request K V → Except Err V
  fit : Study K V Data → Data → Dict V → FitResult K V

/-- the column `value` of the history: completed trials and pruned trials that have reported -/
def valuesOf (ts : List (Frozen K V Data)) : List K :=
  ts.filterMap (fun t => match t.outcome with
    | .complete v => some v
    | .pruned r => r
    | .failed => none)

/-- the name of the parameter -/
def nComponents : List Char := "n_components".toList

/-- One round of the loop (ials.py:704-750): tune with the dimension fixed; keep the least value in the
history (pruned trials included), the best parameters with `n_components` set, and the study.  Returns also
the parameters suggested in the best trial. -/
noncomputable def roundOf (U : Chars) (c : Doubling K V Data) (dimension : Nat) (prev : Option (Dict V)) :
    Except Err ((K × Dict V × Study K V Data) × Dict V) :=
  let suggest := match prev with
    | none => c.initialSuggest
    | some p => some (neighbourhood c.asFloat c.scale p [])
  let m := match prev with
    | none => c.trialsInitial
    | some _ => c.trialsFollowing
  let setup : Setup K V Data := ⟨.ret c.data, .ret [], [(nComponents, c.int dimension)], c.target,
    c.cutoffSuffix, c.sample dimension, c.fit⟩
  match tune U c.ranges (some c.data) none suggest setup m ⟨[], []⟩ with
  | .error e => .error e
  | .ok (bp, study) =>
    match bestOf study.trials with
    | none => .error .valueError
    | some (t, v) =>
      let least := (valuesOf study.trials).foldl min v
      .ok ((least, bp.set nComponents (c.int dimension), study), t.params)

/-- The loop (ials.py:702-750) with at most `fuel` rounds; `none` means that it has not ended by then.
Dimensions are natural numbers here (a negative initial dimension behaves like zero: the loop does not
end). -/
noncomputable def doublingLoop (U : Chars) (c : Doubling K V Data) (maximal : Nat) :
    Nat → Nat → Option (Dict V) → List (K × Dict V × Study K V Data) →
      Option (Except Err (List (K × Dict V × Study K V Data)))
  | 0, _, _, _ => none
  | fuel + 1, dimension, prev, results =>
    if dimension ≤ maximal then
      match roundOf U c dimension prev with
      | .error e => some (.error e)
      | .ok (r, p) => doublingLoop U c maximal fuel (dimension * 2) (some p) (results ++ [r])
    else some (.ok results)

/-- the first entry with the least value -/
def leastOf : List (K × Dict V × Study K V Data) → Option (K × Dict V × Study K V Data)
  | [] => none
  | r :: rs =>
    match leastOf rs with
    | none => some r
    | some b => if b.1 < r.1 then some b else some r

/-- The end (ials.py:751-754): `pd.concat` of no frames raises `ValueError`; sorting the results compares
dictionaries, which raises `TypeError`, as soon as two values are equal (two entries with the same value
are adjacent after sorting and have to be compared, and their dictionaries differ in `n_components`). -/
noncomputable def doublingResult (results : List (K × Dict V × Study K V Data)) :
    Except Err (Dict V × List (Study K V Data)) :=
  match leastOf results with
  | none => .error .valueError
  | some r =>
    if (results.map (·.1)).Nodup then .ok (r.2.1, results.map (·.2.2)) else .error .typeError

/-- `tune_doubling_dimension` (ials.py:637-756) with at most `fuel` rounds -/
noncomputable def tuneDoubling (U : Chars) (c : Doubling K V Data) (initial maximal fuel : Nat) :
    Option (Except Err (Dict V × List (Study K V Data))) :=
  match doublingLoop U c maximal fuel initial none [] with
  | none => none
  | some (.error e) => some (.error e)
  | some (.ok results) => some (doublingResult results)

end

end Irspack.Tuning
