import Verif.Model.Region
import Verif.Model.Retrieval
import Verif.Model.Pickle

/-!
# Parallel regions in which something goes wrong

`Model/WorkQueue.lean` with two more things that can happen: the code run for a row, or before the first row, throws
(a failed decomposition, `std::bad_alloc`), and the system refuses to start a worker (`std::system_error`).
-/

namespace Irspack.WorkerFaults

/-- How a region starts its workers and how it collects them. -/
inductive Launch where
  /-- `std::async(std::launch::async, …)`, then `future::get` for every worker -/
  | collected
  /-- `std::async(…)` without a policy, whose futures are destroyed without `get` -/
  | dropped
  /-- `std::thread`, then `join` -/
  | threads
  deriving DecidableEq, Repr

/-- The parallel regions of the extension that share a queue. -/
inductive Routine where
  | sparseProduct | slim | retrieve | cacheGroundTruth | metrics | listMetrics | prepareP | stepCg | stepCholesky
  | stepCholeskyPrior | prediction | stepDimrange | stepIcd | userScores | featureWeight | computeLoss
  deriving DecidableEq, Repr

/-- Which routine uses which (util.hpp:50-68, 246-414, 439-502; evaluator.cpp:217-253, 271-282, 399-429;
IALSTrainer.hpp:89-112, 180-270, 278-330, 342-385, 393-418, 432-512, 561-628, 955-982, 1154-1177, 847-916). -/
def launchOf : Routine → Launch
  | .sparseProduct => .threads
  | .slim => .collected
  | .retrieve => .dropped
  | .cacheGroundTruth => .dropped
  | .metrics => .collected
  | .listMetrics => .collected
  | .prepareP => .collected
  | .stepCg => .collected
  | .stepCholesky => .collected
  | .stepCholeskyPrior => .collected
  | .prediction => .threads
  | .stepDimrange => .threads
  | .stepIcd => .threads
  | .userScores => .threads
  | .featureWeight => .collected
  | .computeLoss => .collected

/-- What goes wrong, in `T` workers with exceptions of type `ε`. -/
structure Trouble (T : Nat) (ε L M : Type) where
  /-- the system starts worker `t` when asked to -/
  starts : Fin T → Bool
  /-- the exception of a refused start -/
  refusal : ε
  /-- what worker `t` throws before its first row -/
  prologue : Fin T → Option ε
  /-- what row `r` throws if worker `t` gets it -/
  row : Fin T → Nat → Option ε
  /-- what has been written when row `r` throws -/
  partly : Nat → L → M → L × M

/-- Where a worker stands.  `threw r hi e`: it ended with exception `e` while it owned the rows `r ≤ · < hi`, of which the
first is the one that threw.  `absent`: it was never started. -/
inductive PC (ε : Type) where
  | fetch
  | work (r hi : Nat)
  | stopped
  | threw (r hi : Nat) (e : ε)
  | absent

/-- as `WorkQueue.State`; `hist` lists the rows that were completed -/
structure State (T : Nat) (ε L M : Type) where
  cursor : Nat
  pc : Fin T → PC ε
  loc : Fin T → L
  mem : M
  hist : List (Fin T × Nat)

variable {T : Nat} {ε L M : Type}

/-- The workers that are started.  A refused start throws out of the loop over the workers, so no later worker is started;
`std::async` without a policy defers the worker instead (nobody will ask for its result, so it never runs) and goes on. -/
def present (k : Launch) (tr : Trouble T ε L M) (t : Fin T) : Bool :=
  match k with
  | .dropped => tr.starts t
  | _ => (List.finRange T).all (fun t' => decide (t < t') || tr.starts t')

/-- The state in which the workers begin (a worker that throws before its first row owns no rows). -/
def init (k : Launch) (tr : Trouble T ε L M) (l₀ : L) (m₀ : M) : State T ε L M where
  cursor := 0
  pc := fun t =>
    if present k tr t then
      match tr.prologue t with
      | some e => .threw 0 0 e
      | none => .fetch
    else .absent
  loc := fun _ => l₀
  mem := m₀
  hist := []

/-- One step of worker `t`: as `WorkQueue.step`, but a row may throw, which ends the worker. -/
def step (n c : Nat) (body : Nat → L → M → L × M) (tr : Trouble T ε L M) (s : State T ε L M) (t : Fin T) : State T ε L M :=
  match s.pc t with
  | .fetch =>
    { s with
      cursor := s.cursor + c
      pc := Function.update s.pc t
        (if n ≤ s.cursor then .stopped else .work s.cursor (min (s.cursor + c) n)) }
  | .work r hi =>
    if r < hi then
      match tr.row t r with
      | some e =>
        { s with
          pc := Function.update s.pc t (.threw r hi e)
          loc := Function.update s.loc t (tr.partly r (s.loc t) s.mem).1
          mem := (tr.partly r (s.loc t) s.mem).2 }
      | none =>
        { s with
          pc := Function.update s.pc t (.work (r + 1) hi)
          loc := Function.update s.loc t (body r (s.loc t) s.mem).1
          mem := (body r (s.loc t) s.mem).2
          hist := s.hist ++ [(t, r)] }
    else
      { s with pc := Function.update s.pc t .fetch }
  | .stopped => s
  | .threw _ _ _ => s
  | .absent => s

/-- a schedule of the workers -/
def run (n c : Nat) (body : Nat → L → M → L × M) (tr : Trouble T ε L M) (s : State T ε L M) (sched : List (Fin T)) :
    State T ε L M :=
  sched.foldl (step n c body tr) s

/-- the exception with which a worker ended -/
def PC.thrown : PC ε → Option ε
  | .threw _ _ e => some e
  | _ => none

/-- a worker that will do nothing more -/
def PC.ended : PC ε → Bool
  | .stopped => true
  | .threw _ _ _ => true
  | .absent => true
  | _ => false

/-- Nobody works any more: `join`, `future::get`, or the destructor of a future of `std::async`, which waits. -/
def Finished (s : State T ε L M) : Prop := ∀ t, (s.pc t).ended = true

/-- what the caller sees: a value, an exception, or the end of the process (`std::terminate`) -/
inductive Outcome (ε R : Type) where
  | value (r : R)
  | raised (e : ε)
  | terminated

/-- The exceptions of the workers, in the order of the workers. -/
def firstThrown (s : State T ε L M) : Option ε := (List.ofFn (fun t => (s.pc t).thrown)).findSome? id

/-- The end of a region.
* `collected`: a refused start throws while the earlier futures are destroyed, which waits for their workers;
  otherwise `get` throws the exception of the first worker that has one, and the destructors wait for the others.
* `dropped`: exceptions are destroyed with the futures (`workers.clear()`, util.hpp:502; the end of the scope, evaluator.cpp:254).
* `threads`: an exception that leaves the function of a `std::thread`, and the destruction of a `std::thread` that has not
  been joined, end the process; a refused first start finds no such thread and is thrown. -/
def collect {R : Type} (k : Launch) (tr : Trouble T ε L M) (s : State T ε L M) (result : (Fin T → L) → M → R) : Outcome ε R :=
  match k with
  | .dropped => .value (result s.loc s.mem)
  | .collected =>
    if (List.finRange T).all tr.starts then
      match firstThrown s with
      | some e => .raised e
      | none => .value (result s.loc s.mem)
    else .raised tr.refusal
  | .threads =>
    if (List.finRange T).all tr.starts then
      match firstThrown s with
      | some _ => .terminated
      | none => .value (result s.loc s.mem)
    else if (List.finRange T).any (present .threads tr) then .terminated
    else .raised tr.refusal

/-- A region of a routine: `n` rows, blocks of `c`, from `l₀` and `m₀`, interleaved by `sched`. -/
def region {R : Type} (ρ : Routine) (n c : Nat) (body : Nat → L → M → L × M) (l₀ : L) (m₀ : M) (tr : Trouble T ε L M)
    (sched : List (Fin T)) (result : (Fin T → L) → M → R) : Outcome ε R :=
  collect (launchOf ρ) tr (run n c body tr (init (launchOf ρ) tr l₀ m₀) sched) result

/-! ## Regions in which worker `t` does job `t` -/

/-- The end of `compute_similarity` with several threads (knn.hpp:54-80): worker `t` computes its own block, `get` is called
in the order of the workers. -/
def collectJobs {R : Type} (starts : Fin T → Bool) (refusal : ε) (job : Fin T → Except ε R) : Outcome ε (List R) :=
  if (List.finRange T).all starts then
    match (List.finRange T).mapM job with
    | .ok rs => .value rs
    | .error e => .raised e
  else .raised refusal

/-! ## Two routines -/

section routines
variable {S F : Type}

/-- `retrieve_recommend_from_score` (util.hpp:438-503) in trouble, after its checks. -/
def retrieveFaulty [LinearOrder F] [OrderBot F] (psort : Nat → List (Nat × F) → List (Nat × F)) (cast : S → F) (dflt : S)
    (nItems : Nat) (score : List (List S)) (allowed : List (List Int)) (cutoff nThreads : Nat)
    (tr : Trouble (min nThreads score.length) ε Unit (Nat → List (Nat × F))) (sched : List (Fin (min nThreads score.length))) :
    Outcome ε (List (List (Nat × F))) :=
  region .retrieve score.length 1
    (fun u l X => (l, Function.update X u (Retrieval.retrieveRow psort cast dflt nItems score allowed cutoff u))) ()
    (fun _ => []) tr sched (fun _ X => (List.range score.length).map X)

/-- `cache_X_map` (evaluator.cpp:208-254) in trouble, on an object with at least one user: the sets that are there when it
returns are kept for good, because the vector is no longer empty. -/
def cacheFaulty (o : Evaluation.CoreObj) (nThreads : Nat) (tr : Trouble nThreads ε Unit (Nat → Finset Nat))
    (sched : List (Fin nThreads)) : Outcome ε Evaluation.CoreObj :=
  match o.cache with
  | some _ => .value o
  | none =>
    region .cacheGroundTruth o.core.nUsers 1 (fun u l X => (l, Function.update X u (o.core.gtSet u))) () (fun _ => ∅) tr sched
      (fun _ X => { o with cache := some X })

end routines

end Irspack.WorkerFaults
