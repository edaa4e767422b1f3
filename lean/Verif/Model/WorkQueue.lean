import Mathlib.Data.Fintype.Basic
import Mathlib.Data.Fin.Basic

/-!
# The shared work queue of the C++ extension

Every multi-threaded loop of the extension has the same shape:

```cpp
std::atomic<...> cursor(0);
for th in 0..n_threads:
  async([&] {
    Local local;                                // optional worker-local accumulator
    while (true) {
      auto pos = cursor.fetch_add(chunk);
      if (pos >= n) break;
      for (r = pos; r < min(pos + chunk, n); r++) body(r);   // writes row r / local
    }
    return local;
  })
join all
```

Instances: /repo/cpp_source/util.hpp:49-68 (chunk 16), 247-411 (chunk = SIMD width),
440-502 (chunk 1); /repo/cpp_source/evaluator.cpp:216-253, 269-282, 400-429 (chunk 1);
/repo/cpp_source/als/IALSTrainer.hpp: `prepare_p` (chunk 16), `step_*` (chunk 1),
`user_scores`, `solve_feature_weight`, `compute_loss`.

The model interleaves workers at the granularity of one atomic `fetch_add`, or one row body.
Taking a row body as one step loses nothing: a body reads only data that no worker writes, and
writes only its own row of the shared result or the worker's own local accumulator.
-/

namespace Irspack.WorkQueue

/-- Where a worker stands in the loop above. `work r hi`: it owns the rows `r ≤ · < hi` still to do.
(util.hpp:54-63, evaluator.cpp:307-311.) -/
inductive PC where
  | fetch
  | work (r hi : Nat)
  | stopped
  deriving DecidableEq, Repr

/-- State of a parallel region with `T` workers: the atomic cursor, each worker's position, each
worker's local accumulator (`Metrics metrics_local`, evaluator.cpp:298; unused elsewhere), the shared
result, and a ghost history of the processed rows (worker, row), oldest first. -/
structure State (T : Nat) (L M : Type) where
  cursor : Nat
  pc : Fin T → PC
  loc : Fin T → L
  mem : M
  hist : List (Fin T × Nat)

variable {T : Nat} {L M : Type}

/-- The state in which the workers are launched: cursor 0, fresh local accumulators
(util.hpp:49-52, evaluator.cpp:269-279). -/
def init (l₀ : L) (m₀ : M) : State T L M where
  cursor := 0
  pc := fun _ => .fetch
  loc := fun _ => l₀
  mem := m₀
  hist := []

/-- One step of worker `t` in a region over `n` rows with chunk size `c`; `body r l m` is the work
done for row `r`.
* `fetch`: `pos = cursor.fetch_add(c); if (pos >= n) break;` and the block is
  `[pos, min(pos + c, n))` (util.hpp:55-60, evaluator.cpp:308-311).
* `work`: the loop over the block (util.hpp:61-62, evaluator.cpp:312-364).
* `stopped`: the worker has returned. -/
def step (n c : Nat) (body : Nat → L → M → L × M) (s : State T L M) (t : Fin T) : State T L M :=
  match s.pc t with
  | .fetch =>
    { s with
      cursor := s.cursor + c
      pc := Function.update s.pc t
        (if n ≤ s.cursor then .stopped else .work s.cursor (min (s.cursor + c) n)) }
  | .work r hi =>
    if r < hi then
      { s with
        pc := Function.update s.pc t (.work (r + 1) hi)
        loc := Function.update s.loc t (body r (s.loc t) s.mem).1
        mem := (body r (s.loc t) s.mem).2
        hist := s.hist ++ [(t, r)] }
    else
      { s with pc := Function.update s.pc t .fetch }
  | .stopped => s

/-- Run a schedule: the list of worker numbers in the order in which they take steps. -/
def run (n c : Nat) (body : Nat → L → M → L × M) (s : State T L M) (sched : List (Fin T)) :
    State T L M :=
  sched.foldl (step n c body) s

/-- All workers have returned (`join`, `future::get`; util.hpp:66-68, evaluator.cpp:280-282). -/
def Finished (s : State T L M) : Prop := ∀ t, s.pc t = .stopped

end Irspack.WorkQueue
