import Verif.Model.Basic

/-!
# `get_n_threads` (/repo/src/irspack/_threading.py)

Strings are lists of characters.  `Chars` says which characters Python regards as white space and which as
decimal digits (with their values); this is Unicode data of the interpreter.
-/

namespace Irspack

/-- The Unicode data used by `int` and by `\d` of `re`. -/
structure Chars where
  space : Char → Bool
  digit : Char → Option Nat

namespace Threads

variable (U : Chars)

/-- The rest of a numeral after a digit: digits, each possibly preceded by one underscore. -/
def digitsAfter (acc : Nat) : List Char → Option Nat
  | [] => some acc
  | '_' :: c :: t => (U.digit c).bind (fun d => digitsAfter (10 * acc + d) t)
  | c :: t => (U.digit c).bind (fun d => digitsAfter (10 * acc + d) t)

/-- A decimal numeral without sign. -/
def natural : List Char → Option Nat
  | [] => none
  | c :: t => (U.digit c).bind (fun d => digitsAfter U d t)

/-- `str.strip()` -/
def strip (s : List Char) : List Char := ((s.dropWhile U.space).reverse.dropWhile U.space).reverse

/-- Python's `int(s)` for a string: white space around, a sign, decimal digits of any script with single
underscores between digits.  The limit on the number of digits of Python 3.11 (4300 by default) is left
out. -/
def pyInt (s : List Char) : Option Int :=
  match strip U s with
  | '+' :: t => (natural U t).map (fun n : Nat => (n : Int))
  | '-' :: t => (natural U t).map (fun n : Nat => -(n : Int))
  | t => (natural U t).map (fun n : Nat => (n : Int))

/-- `get_n_threads` (_threading.py:5-17): `env` is the value of `IRSPACK_NUM_THREADS_DEFAULT` and `cpus` is
`os.cpu_count()`.  `n_threads_cand or 1` replaces `None`, `0` and the empty string by `1`. -/
def getNThreads (arg : Option Int) (env : Option (List Char)) (cpus : Option Nat) : Except Err Int :=
  match arg with
  | some n => .ok n
  | none =>
    match env with
    | some s =>
      if s = [] then .ok 1
      else
        match pyInt U s with
        | some n => .ok n
        | none => .error .valueError
    | none =>
      match cpus with
      | none => .ok 1
      | some c => if c = 0 then .ok 1 else .ok c

end Threads
end Irspack
