import Verif.Model.NanArgs

/-!
# Documented ranges of floating-point arguments

`Fp` is the model's type of floating-point numbers, `KindFp` and `Kind` name the similarity computers with their
arguments; no function of the model is used.
-/

namespace Irspack.Spec
open Irspack.NanArgs

/-- A number (not NaN) of at least `a`; `+inf` is one. -/
def AtLeast (a : ℝ) (x : Fp) : Prop := x = .pinf ∨ ∃ r, x = .fin r ∧ a ≤ r

/-- A number between `a` and `b`. -/
def Between (a b : ℝ) (x : Fp) : Prop := ∃ r, x = .fin r ∧ a ≤ r ∧ r ≤ b

/-- The arguments a similarity computer documents. -/
def InRange (shrinkage : Fp) : KindFp → Prop
  | .cosine => AtLeast 0 shrinkage
  | .jaccard => AtLeast 0 shrinkage
  | .asymmetric alpha => AtLeast 0 shrinkage ∧ Between 0 1 alpha
  | .tversky alpha beta => AtLeast 0 shrinkage ∧ AtLeast 0 alpha ∧ AtLeast 0 beta

/-- No argument is NaN. -/
def NoNan (shrinkage : Fp) : KindFp → Prop
  | .cosine => shrinkage ≠ .nan
  | .jaccard => shrinkage ≠ .nan
  | .asymmetric alpha => shrinkage ≠ .nan ∧ alpha ≠ .nan
  | .tversky alpha beta => shrinkage ≠ .nan ∧ alpha ≠ .nan ∧ beta ≠ .nan

/-- `IsReal kind k`: the arguments of `kind` are finite and in range, and `k` is the same computer with real
arguments. -/
inductive IsReal : KindFp → Irspack.Sim.Kind → Prop where
  | cosine : IsReal .cosine (.cosine true)
  | jaccard : IsReal .jaccard .jaccard
  | asymmetric {a : ℝ} (h0 : 0 ≤ a) (h1 : a ≤ 1) : IsReal (.asymmetric (.fin a)) (.asymmetric a)
  | tversky {a b : ℝ} (ha : 0 ≤ a) (hb : 0 ≤ b) : IsReal (.tversky (.fin a) (.fin b)) (.tversky a b)

end Irspack.Spec
