import Verif.Proofs.Threads

/-!
# C56: how the number of threads is chosen

`IntegerLiteral` is the documented syntax of `int` (Spec/Numeral.lean).
-/

namespace Irspack.Threads

open Spec.Numeral

/-- C56 (explicit argument).  An explicit argument is returned unchanged, also `0` and negative numbers,
whatever the environment. -/
theorem C56_explicit (U : Chars) (n : Int) (env : Option (List Char)) (cpus : Option Nat) :
    getNThreads U (some n) env cpus = .ok n := rfl

/-- C56 (environment variable).  Without an argument, a non-empty value of the variable is read as an
integer literal; if it is none, `ValueError` is raised.  The number of CPUs does not matter. -/
theorem C56_environment (U : Chars) (hU : U.Sane) (s : List Char) (hs : s ≠ []) (cpus : Option Nat) :
    (∀ n, getNThreads U none (some s) cpus = .ok n ↔ IntegerLiteral U s n) ∧
    ((¬ ∃ n, IntegerLiteral U s n) → getNThreads U none (some s) cpus = .error .valueError) := by
  have heq : getNThreads U none (some s) cpus =
      match pyInt U s with
      | some n => .ok n
      | none => .error .valueError := by
    unfold getNThreads
    simp only [if_neg hs]
    cases pyInt U s <;> rfl
  rw [heq]
  constructor
  · intro n
    rw [← pyInt_iff hU]
    cases pyInt U s with
    | none => simp
    | some m => simp
  · intro h
    cases hp : pyInt U s with
    | none => rfl
    | some m => exact absurd ⟨m, (pyInt_iff hU s m).mp hp⟩ h

/-- C56 (fallback).  Without an argument, an empty variable gives 1; without the variable the number of
CPUs is used, or 1 if it is unknown. -/
theorem C56_fallback (U : Chars) :
    (∀ cpus, getNThreads U none (some []) cpus = .ok 1) ∧
    (∀ c : Nat, 0 < c → getNThreads U none none (some c) = .ok c) ∧
    getNThreads U none none none = .ok 1 := by
  refine ⟨fun _ => rfl, fun c hc => ?_, rfl⟩
  unfold getNThreads
  simp only [if_neg (show ¬ c = 0 by omega)]

/-- C56 (an integer literal has one value), so the environment determines the number of threads. -/
theorem C56_literal_unique (U : Chars) (hU : U.Sane) (s : List Char) (m n : Int)
    (h1 : IntegerLiteral U s m) (h2 : IntegerLiteral U s n) : m = n :=
  Option.some.inj (((pyInt_iff hU s m).mpr h1).symm.trans ((pyInt_iff hU s n).mpr h2))

/-- the ASCII part of the Unicode data -/
def ascii : Chars where
  space c := c = ' ' || c = '\n' || c = '\t' || c = '\r'
  digit c := if '0' ≤ c ∧ c ≤ '9' then some (c.toNat - 48) else none

theorem ascii_sane : ascii.Sane where
  signs := by rintro c (rfl | rfl | rfl) <;> decide
  disjoint := by
    intro c hc
    simp only [ascii, Bool.or_eq_true, decide_eq_true_eq] at hc
    rcases hc with ((rfl | rfl) | rfl) | rfl <;> decide

/-- `" -1_024\n"` is an integer literal; `"4 2"` is none. -/
example : IntegerLiteral ascii " -1_024\n".toList (-1024) ∧ ¬ ∃ n, IntegerLiteral ascii "4 2".toList n := by
  constructor
  · exact (pyInt_iff ascii_sane _ _).mp (by decide +kernel)
  · rintro ⟨n, hn⟩
    have := (pyInt_iff ascii_sane _ _).mpr hn
    rw [show pyInt ascii "4 2".toList = none by decide +kernel] at this
    cases this

end Irspack.Threads
