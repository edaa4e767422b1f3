import Mathlib.Data.Real.Basic

/-!
# Draws of a random source
-/

namespace Irspack.Spec

variable {G : Type}

/-- the state of a source after `n` draws -/
def stateAfterDraws (next : G → ℝ × G) (g : G) : Nat → G
  | 0 => g
  | n + 1 => (next (stateAfterDraws next g n)).2

/-- the `n`-th number (from 0) that a source in state `g` gives -/
def nthDraw (next : G → ℝ × G) (g : G) (n : Nat) : ℝ := (next (stateAfterDraws next g n)).1

end Irspack.Spec
