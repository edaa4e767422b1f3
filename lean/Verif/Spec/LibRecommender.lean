import Verif.Model.LibRecommender
import Verif.Spec.SimRecommender

/-!
# What a recommender should ask of the library it wraps
-/

namespace Irspack.RecClasses

/-- The keyword arguments `asked` are exactly these, in some order. -/
def Exactly (asked wanted : Args) : Prop := ∀ name, asked.lookup name = wanted.lookup name

/-- what `n` rounds of training do, one after another; the first failure ends them -/
def rounds {S : Type} (n : Nat) (round : Nat → S → Except Err S) (s : S) : Except Err S :=
  (List.range n).foldlM (fun s k => round k s) s

/-- the value `-1` for `None`, the number otherwise -/
def keepAllIfNone : Option Nat → ℤ
  | none => -1
  | some k => k

/-- What the solver of SLIM is to be run with, for data with `nUsers` users: `n` sweeps, the two penalties, and
so on; `r` is what does not depend on the arguments. -/
noncomputable def slimSettings (r : SlimRun) (nUsers : Nat) (alpha l1Ratio : ℝ) (positiveOnly : Bool) (nIter : Nat)
    (tol : ℝ) (topK : Option Nat) : Slim.Config ℝ where
  positiveOnly := positiveOnly
  nIter := nIter
  l2 := nUsers * alpha * (1 - l1Ratio)
  l1 := nUsers * alpha * l1Ratio
  tol := tol
  topK := keepAllIfNone topK
  blockSize := r.blockSize
  prec := r.prec

end Irspack.RecClasses
