import Mathlib.Algebra.BigOperators.Fin
import Verif.Model.Sparse

/-!
# Sequences of parallel regions

The iALS code runs many work-queue regions one after the other (`Model/WorkQueue.lean`).  An `Oracle`
chooses the interleaving of each of them: the region is identified by a label (its place in the
program), its number of rows and its block size.
-/

namespace Irspack

open WorkQueue

/-- The interleaving of every parallel region that a program runs with `T` threads. -/
abbrev Oracle (T : Nat) := List Nat → Nat → Nat → List (Fin T)

/-- Every region is run until all its workers have returned (`join`, `future::get`). -/
def Oracle.Complete {T : Nat} (ω : Oracle T) : Prop :=
  ∀ lab n c, 0 < c →
    Finished (run n c (fun _ l m => (l, m)) (init () () : State T Unit Unit) (ω lab n c))

/-- the oracle for the regions below a label -/
def Oracle.at {T : Nat} (ω : Oracle T) (k : Nat) : Oracle T := fun lab n c => ω (k :: lab) n c

variable {T : Nat} {A : Type}

/-- A region in which every row adds to the accumulator of its worker; the results of the workers are
added up (`P.noalias() += w.get()`, `loss += w.get()`: IALSTrainer.hpp:110-112, 883-885). -/
def parSum [AddCommMonoid A] (ω : Oracle T) (n c : Nat) (g : Nat → A) : A :=
  ∑ t, (run n c (fun r l m => (l + g r, m)) (init 0 () : State T A Unit) (ω [] n c)).loc t

/-- Row `r` of the loop body `f` inside a worker: its result is stored in row `r`, unless it throws
(then, or if the worker has thrown before, nothing is stored). -/
def rowBody (f : Nat → A → Except Err A) (r : Nat) (l : Option Err) (m : Nat → A) :
    Option Err × (Nat → A) :=
  match l with
  | some e => (some e, m)
  | none =>
    match f r (m r) with
    | .ok y => (none, Function.update m r y)
    | .error e => (some e, m)

/-- A region in which row `r` is replaced by `f r` of it, where `f` may throw.  `future::get` is
called worker by worker and re-throws the first exception.

Simplification: a worker that has thrown still takes blocks here, and leaves them untouched; in the
code it ends and the other workers take them.  Both end with an exception. -/
def parRows (ω : Oracle T) (n c : Nat) (f : Nat → A → Except Err A) (m : Nat → A) :
    Except Err (Nat → A) :=
  let s := run n c (rowBody f) (init none m : State T (Option Err) (Nat → A)) (ω [] n c)
  match (List.ofFn s.loc).findSome? id with
  | some e => .error e
  | none => .ok s.mem

end Irspack
